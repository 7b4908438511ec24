import Verif.Model.DataTexts
import Verif.Model.JsonText
import Verif.Props.DataFiles

/-! Which flags and options a JSON value lists, as a function, to compare the texts of the shipped files with the tables of the model. -/

namespace PashAnn.Json

open Spec

/-- A string. -/
def str? : Json → Option String
  | .str s => some s
  | _ => none

/-- A flag of a data file. -/
def flagEntry? : Json → Option FlagEntry
  | .str s => some (.bare s)
  | .arr l => (l.mapM str?).map FlagEntry.group
  | _ => none

/-- The argument of an option. -/
def argInfo? : Json → Option ArgInfo
  | .str s => some (.word s)
  | .arr [.str k, .str a] => some (.withAccess k a)
  | _ => none

/-- An option of a data file. -/
def optionEntry? : Json → Option OptionEntry
  | .arr l =>
    match l.getLast? with
    | none => none
    | some a =>
      match l.dropLast.mapM str?, argInfo? a with
      | some names, some arg => some ⟨names, arg⟩
      | _, _ => none
  | _ => none

/-- The flags and options of a data file. -/
def decode : Json → Option JsonData
  | .obj l =>
    match l.lookup "flag", l.lookup "option" with
    | some (.arr fs), some (.arr os) =>
      match fs.mapM flagEntry?, os.mapM optionEntry? with
      | some fs, some os => some ⟨fs, os⟩
      | _, _ => none
    | _, _ => none
  | _ => none
theorem mapM_some {α β : Type} (f : α → Option β) (g : β → α) (h : ∀ a b, f a = some b → a = g b) :
    ∀ (l : List α) (r : List β), l.mapM f = some r → l = r.map g := by
  intro l
  induction l with
  | nil => intro r hr; simp only [List.mapM_nil, Option.pure_def, Option.some.injEq] at hr; subst hr; rfl
  | cons a l ih =>
    intro r hr
    simp only [List.mapM_cons, Option.bind_eq_bind, Option.bind_eq_some_iff, Option.pure_def, Option.some.injEq] at hr
    obtain ⟨b, hb, bs, hbs, rfl⟩ := hr
    rw [List.map_cons, ← h a b hb, ← ih bs hbs]

theorem str?_some (j : Json) (s : String) (h : str? j = some s) : j = .str s := by
  cases j <;> simp_all [str?]

theorem flagEntry?_some (j : Json) (e : FlagEntry) (h : flagEntry? j = some e) : j = flagText e := by
  cases j with
  | str s =>
    simp only [flagEntry?, Option.some.injEq] at h
    subst h; rfl
  | arr l =>
    simp only [flagEntry?] at h
    obtain ⟨r, hr, rfl⟩ := Option.map_eq_some_iff.1 h
    rw [mapM_some str? Json.str str?_some l r hr]
    rfl
  | null => cases h
  | bool _ => cases h
  | num _ => cases h
  | obj _ => cases h

theorem argInfo?_some (j : Json) (a : ArgInfo) (h : argInfo? j = some a) : j = argText a := by
  unfold argInfo? at h
  split at h
  · simp only [Option.some.injEq] at h; subst h; rfl
  · simp only [Option.some.injEq] at h; subst h; rfl
  · cases h

theorem optionEntry?_some (j : Json) (e : OptionEntry) (h : optionEntry? j = some e) : j = optionText e := by
  unfold optionEntry? at h
  split at h
  · rename_i l
    split at h
    · cases h
    · rename_i a ha
      split at h
      · rename_i names arg hn harg
        simp only [Option.some.injEq] at h
        subst h
        have h1 := mapM_some str? Json.str str?_some _ _ hn
        have h2 := argInfo?_some _ _ harg
        obtain ⟨hne, hlast⟩ := List.getLast?_eq_some_iff.1 ha
        subst hlast
        rw [List.dropLast_concat] at h1
        rw [h1, h2]
        rfl
      · cases h
  · cases h

theorem decode_lists {j : Json} {d : JsonData} (h : decode j = some d) : FileLists j d := by
  unfold decode at h
  split at h
  · rename_i items
    split at h
    · rename_i fs os hf ho
      split at h
      · rename_i fs' os' hf' ho'
        simp only [Option.some.injEq] at h
        subst h
        refine ⟨items, rfl, ?_, ?_⟩
        · rw [hf, mapM_some _ flagText flagEntry?_some _ _ hf']
        · rw [ho, mapM_some _ optionText optionEntry?_some _ _ ho']
      · cases h
    · cases h
  · cases h

theorem text_default_data_for_commands : (loads (DataTexts.join DataTexts.t_default_data_for_commands)).bind decode = some Data.d_default_data_for_commands := by decide +kernel

theorem text_awk : (loads (DataTexts.join DataTexts.t_awk)).bind decode = some Data.d_awk := by decide +kernel

theorem text_cat : (loads (DataTexts.join DataTexts.t_cat)).bind decode = some Data.d_cat := by decide +kernel

theorem text_col : (loads (DataTexts.join DataTexts.t_col)).bind decode = some Data.d_col := by decide +kernel

theorem text_comm : (loads (DataTexts.join DataTexts.t_comm)).bind decode = some Data.d_comm := by decide +kernel

theorem text_custom_sort : (loads (DataTexts.join DataTexts.t_custom_sort)).bind decode = some Data.d_custom_sort := by decide +kernel

theorem text_custom_tr : (loads (DataTexts.join DataTexts.t_custom_tr)).bind decode = some Data.d_custom_tr := by decide +kernel

theorem text_cut : (loads (DataTexts.join DataTexts.t_cut)).bind decode = some Data.d_cut := by decide +kernel

theorem text_diff : (loads (DataTexts.join DataTexts.t_diff)).bind decode = some Data.d_diff := by decide +kernel

theorem text_export : (loads (DataTexts.join DataTexts.t_export)).bind decode = some Data.d_export := by decide +kernel

theorem text_grep : (loads (DataTexts.join DataTexts.t_grep)).bind decode = some Data.d_grep := by decide +kernel

theorem text_head : (loads (DataTexts.join DataTexts.t_head)).bind decode = some Data.d_head := by decide +kernel

theorem text_mkfifo : (loads (DataTexts.join DataTexts.t_mkfifo)).bind decode = some Data.d_mkfifo := by decide +kernel

theorem text_mv : (loads (DataTexts.join DataTexts.t_mv)).bind decode = some Data.d_mv := by decide +kernel

theorem text_rm : (loads (DataTexts.join DataTexts.t_rm)).bind decode = some Data.d_rm := by decide +kernel

theorem text_sed : (loads (DataTexts.join DataTexts.t_sed)).bind decode = some Data.d_sed := by decide +kernel

theorem text_seq : (loads (DataTexts.join DataTexts.t_seq)).bind decode = some Data.d_seq := by decide +kernel

theorem text_sort : (loads (DataTexts.join DataTexts.t_sort)).bind decode = some Data.d_sort := by decide +kernel

theorem text_tail : (loads (DataTexts.join DataTexts.t_tail)).bind decode = some Data.d_tail := by decide +kernel

theorem text_tee : (loads (DataTexts.join DataTexts.t_tee)).bind decode = some Data.d_tee := by decide +kernel

theorem text_tr : (loads (DataTexts.join DataTexts.t_tr)).bind decode = some Data.d_tr := by decide +kernel

theorem text_uniq : (loads (DataTexts.join DataTexts.t_uniq)).bind decode = some Data.d_uniq := by decide +kernel

theorem text_wc : (loads (DataTexts.join DataTexts.t_wc)).bind decode = some Data.d_wc := by decide +kernel

theorem text_xargs : (loads (DataTexts.join DataTexts.t_xargs)).bind decode = some Data.d_xargs := by decide +kernel

/-- Every shipped file, read from its text, lists what the table of the model says. -/
theorem texts_decode : ∀ e ∈ DataTexts.table, (loads (DataTexts.join e.2)).bind decode = Data.table.lookup e.1 := by
  unfold DataTexts.table
  simp only [List.forall_mem_cons]
  refine ⟨text_default_data_for_commands.trans (by decide +kernel),
    text_awk.trans (by decide +kernel),
    text_cat.trans (by decide +kernel),
    text_col.trans (by decide +kernel),
    text_comm.trans (by decide +kernel),
    text_custom_sort.trans (by decide +kernel),
    text_custom_tr.trans (by decide +kernel),
    text_cut.trans (by decide +kernel),
    text_diff.trans (by decide +kernel),
    text_export.trans (by decide +kernel),
    text_grep.trans (by decide +kernel),
    text_head.trans (by decide +kernel),
    text_mkfifo.trans (by decide +kernel),
    text_mv.trans (by decide +kernel),
    text_rm.trans (by decide +kernel),
    text_sed.trans (by decide +kernel),
    text_seq.trans (by decide +kernel),
    text_sort.trans (by decide +kernel),
    text_tail.trans (by decide +kernel),
    text_tee.trans (by decide +kernel),
    text_tr.trans (by decide +kernel),
    text_uniq.trans (by decide +kernel),
    text_wc.trans (by decide +kernel),
    text_xargs.trans (by decide +kernel), by simp⟩

theorem texts_names : DataTexts.table.map Prod.fst = Data.table.map Prod.fst := by decide +kernel

end PashAnn.Json
