import Verif.Lemmas.Parser

namespace PashAnn
open Spec

/-! Facts about the complete shipped table, evaluated by the kernel. -/

theorem shipped_of_table {P : JsonData → Prop} (h : ∀ p ∈ Data.table, P p.2) {d : JsonData} (hd : Shipped d) :
    P d := by
  rcases hd with ⟨name, hm⟩ | rfl
  · exact h _ hm
  · exact h ("_default_data_for_commands", _) (by rw [Data.table]; exact List.mem_cons_self)

/-- No option name reads as a cluster of flags. -/
abbrev NoClusterOption (d : JsonData) : Prop := ∀ w ∈ setOfAllOptions d,
    (match w.toList with
     | [] => true
     | c :: cs => !areAllIndividuallyFlags (setOfAllFlags d) c cs) = true

theorem table_noClusterOption : ∀ p ∈ Data.table, NoClusterOption p.2 := by decide +kernel

theorem shipped_noClusterOption {d : JsonData} (hd : Shipped d) (w : String) (hw : Declared (optionGroups d) w)
    (l : List Char) : ¬ ClusterOf d w l := by
  intro hc
  have := shipped_of_table (P := NoClusterOption) table_noClusterOption hd w
    ((mem_setOfAllOptions d w).2 hw)
  rw [hc.1] at this
  simp only [Bool.not_eq_true'] at this
  rw [(clusterOf_iff d w '-' l hc.1).2 hc] at this
  cases this

/-- No name is empty, canonical names are canonical, and the canonical name of an option is not a flag. -/
abbrev TidyFacts (d : JsonData) : Prop :=
    (∀ f ∈ setOfAllFlags d, f ≠ "" ∧ primaryFlag d f ≠ "" ∧
      primaryFlag d (primaryFlag d f) = primaryFlag d f) ∧
    (∀ o ∈ setOfAllOptions d, o ≠ "" ∧ primaryOption d o ≠ "" ∧
      primaryOption d (primaryOption d o) = primaryOption d o ∧
      (o ∉ setOfAllFlags d → primaryOption d o ∉ setOfAllFlags d))

theorem table_tidy : ∀ p ∈ Data.table, TidyFacts p.2 := by decide +kernel

theorem shipped_tidy {d : JsonData} (hd : Shipped d) : Tidy d := by
  have := shipped_of_table (P := TidyFacts) table_tidy hd
  exact ⟨fun f hf => (this.1 f hf).2.1, fun f hf => (this.1 f hf).2.2, fun o ho => (this.2 o ho).2.1,
    fun o ho => (this.2 o ho).2.2.1, fun o ho => (this.2 o ho).2.2.2⟩

theorem shipped_flag_nonempty {d : JsonData} (hd : Shipped d) {w : String} (h : Declared (flagGroups d) w) :
    w ≠ "" := ((shipped_of_table (P := TidyFacts) table_tidy hd).1 w ((mem_setOfAllFlags d w).2 h)).1

theorem shipped_option_nonempty {d : JsonData} (hd : Shipped d) {w : String} (h : Declared (optionGroups d) w) :
    w ≠ "" := ((shipped_of_table (P := TidyFacts) table_tidy hd).2 w ((mem_setOfAllOptions d w).2 h)).1

/-- Names declared in the same group have the same canonical name. -/
abbrev SynonymFacts (d : JsonData) : Prop :=
    (∀ e ∈ d.flag, ∀ f ∈ e.items, ∀ f' ∈ e.items, primaryFlag d f = primaryFlag d f') ∧
    (∀ e ∈ d.option, ∀ o ∈ e.names, ∀ o' ∈ e.names, o = o' ∨
      (primaryOption d o = primaryOption d o' ∧ o ∉ setOfAllFlags d ∧ o' ∉ setOfAllFlags d))

theorem table_synonyms : ∀ p ∈ Data.table, SynonymFacts p.2 := by
  decide +kernel

theorem shipped_flag_synonyms {d : JsonData} (hd : Shipped d) {g : List String} (hg : g ∈ flagGroups d)
    {f f' : String} (hf : f ∈ g) (hf' : f' ∈ g) : primaryFlag d f = primaryFlag d f' := by
  obtain ⟨e, he, rfl⟩ := List.mem_map.1 hg
  rw [flagSpellings_eq] at hf hf'
  exact (shipped_of_table (P := SynonymFacts) table_synonyms hd).1 e he f hf f' hf'

theorem shipped_option_synonyms {d : JsonData} (hd : Shipped d) {g : List String} (hg : g ∈ optionGroups d)
    {o o' : String} (ho : o ∈ g) (ho' : o' ∈ g) : o = o' ∨
      (primaryOption d o = primaryOption d o' ∧ ¬ Declared (flagGroups d) o ∧ ¬ Declared (flagGroups d) o') := by
  obtain ⟨e, he, rfl⟩ := List.mem_map.1 hg
  have := (shipped_of_table (P := SynonymFacts) table_synonyms hd).2 e he o ho o' ho'
  simpa only [mem_setOfAllFlags] using this

/-- Which declared names do not begin with a dash. -/
theorem table_dash : ∀ p ∈ Data.table, ∀ w ∈ setOfAllFlags p.2 ++ setOfAllOptions p.2,
    w.toList.head? = some '-' ∨ (p.1 = "uniq" ∧ w ∈ ["f", "s", "w"]) := by decide +kernel

theorem table_equals : ∀ p ∈ Data.table, ∀ w ∈ setOfAllFlags p.2 ++ setOfAllOptions p.2,
    '=' ∉ w.toList ∧ w ≠ "--" := by decide +kernel

/-- Composition for shipped databases, as an equation about the loop. -/
theorem parseLoop_append {d : JsonData} (hd : Shipped d) {pre post : List String} {fs : List FlagOption}
    (h : parseLoop d pre = (fs, [])) :
    parseLoop d (pre ++ post) = (fs ++ (parseLoop d post).1, (parseLoop d post).2) :=
  derives_functional (derives_append (shipped_noClusterOption hd) ((derives_iff d pre fs []).2 h) rfl
    (derives_parseLoop d post))

end PashAnn
