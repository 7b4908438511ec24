import Verif.Lemmas.IOForms

/-! From the closed forms of the generators to typed invocations. -/

namespace PashAnn
open Spec

theorem zipWith_replicate (l : List String) (t : Typer) :
    List.zipWith (fun s t => typedArg t s) l (List.replicate l.length t) = l.map (typedArg t) := by
  induction l with
  | nil => rfl
  | cons a l ih => simp [List.replicate_succ, ih]

/-- What is known of a typed invocation of a command with this generator. -/
theorem typed_gen {inv : CommandInvocationInitial} {c : CommandInvocationWithIO} {n : String} {gen : IOGenerator}
    (hn : inv.cmdName = n) (hm : (n, gen) ∈ ioTable) (h : Typed inv c) :
    ∃ ts i, flagoptionListTyper inv = .ok ts ∧ gen inv (init0 inv ts) = .ok i ∧
      c = ⟨inv.cmdName, List.zipWith typedFlagOption inv.flagOptionList ts,
        List.zipWith (fun s t => typedArg t s) inv.operandList i.operandListTyper, i.implicitInput,
        i.implicitOutput⟩ := by
  obtain ⟨i, hi, ha⟩ := h
  rw [getIO_apply hi] at ha
  obtain ⟨ts, hts, hs⟩ := getIO_shape hi
  obtain ⟨gen', ts', hm', hts', hg⟩ := getIO_some.1 hi
  rw [hts] at hts'; cases hts'
  subst hn
  have h1 := ioGen_of_mem hm
  rw [ioGen_of_mem hm'] at h1
  cases h1
  refine ⟨ts, i, hts, hg, ?_⟩
  rw [← hs.flags]; exact (Except.ok.inj ha).symm

theorem typed_exists {inv : CommandInvocationInitial} {i : InputOutputInfo} (h : getInputOutputInfo inv = some i) :
    ∃ c, i.apply inv = .ok c ∧ Typed inv c := ⟨_, getIO_apply h, i, h, getIO_apply h⟩

theorem ioTable_no_slash {n : String} {gen : IOGenerator} (h : (n, gen) ∈ ioTable) : '/' ∉ n.toList := by
  have hn : ∀ x ∈ ioTable.map Prod.fst, '/' ∉ x.toList := by decide +kernel
  exact hn _ (List.mem_map_of_mem h)

theorem ioTable_plain {n : String} {gen : IOGenerator} (h : (n, gen) ∈ ioTable) : Readable n := by
  have : ∀ m ∈ ioTable.map Prod.fst, Readable m := by decide +kernel
  exact this n (List.mem_map.2 ⟨_, h, rfl⟩)

theorem mem_ioCommands (n : String) : n ∈ ioCommands ↔ ∃ gen, (n, gen) ∈ ioTable := by
  have : ioCommands = ioTable.map Prod.fst := by decide +kernel
  rw [this]; simp

theorem textOf_typedArg (t : Typer) (s : String) : textOf (typedArg t s) = s := by
  cases t with
  | fileStd a =>
      simp only [typedArg, fileOf]
      by_cases h : s = "-"
      · subst h; cases a <;> rfl
      · simp [h, textOf]
  | argString => rfl
  | plainString => rfl

theorem untyped_typed (fo : FlagOption) (t : Typer) : untyped (typedFlagOption fo t) = fo := by
  cases fo with
  | flag n => rfl
  | option n a => simp [typedFlagOption, untyped, textOf_typedArg]

theorem map_zipWith_id {α β γ : Type} (f : α → β → γ) (g : γ → α) (h : ∀ a b, g (f a b) = a) (l : List α)
    (m : List β) (hl : m.length = l.length) : (List.zipWith f l m).map g = l := by
  induction l generalizing m with
  | nil => simp
  | cons a l ih =>
      cases m with
      | nil => simp at hl
      | cons b m => simp [h, ih m (by simpa using hl)]

/-- Options with other-output access in the shipped databases. -/
theorem table_otherOutput : ∀ p ∈ Data.table, ∀ e ∈ p.2.option,
    typerOfArgInfo e.arg = .ok (.fileStd .otherOutput) ↔
      (p.1, e.names.head?) ∈ [("mv", some "-t"), ("sort", some "-T")] := by decide +kernel

theorem default_otherOutput : ∀ e ∈ Data.d_default_data_for_commands.option,
    typerOfArgInfo e.arg ≠ .ok (.fileStd .otherOutput) := by decide +kernel

theorem argClass_typer {i : ArgInfo} {t : Typer} (h : ArgClass i t) (hs : ∃ t', typerOfArgInfo i = .ok t') :
    typerOfArgInfo i = .ok t := by
  obtain ⟨t', h'⟩ := hs
  rw [h', argClass_unique (typerOfArgInfo_class h') h]

/-- An option has other-output access only if it is `mv -t` or `sort -T`, and then it has. -/
theorem otherOutput_option {name : String} {d : JsonData} (hs : '/' ∉ name.toList) (hd : DatabaseFor name d) {n : String} {e : OptionEntry}
    (he : OptionEntryOf d n e) {t : Typer} (ht : ArgClass e.arg t) :
    t = .fileStd .otherOutput ↔ (name = "mv" ∧ n = "-t") ∨ (name = "sort" ∧ n = "-T") := by
  obtain ⟨dict, hdict, hkey⟩ := shipped_typers (databaseFor_shipped hd)
  obtain ⟨t', _, ht'⟩ := hkey n e he
  have hty := argClass_typer ht ⟨t', ht'⟩
  rcases databaseFor_plain hs hd with hd | ⟨hn, rfl⟩
  · have := table_otherOutput _ hd e he.1
    rw [hty, he.2] at this
    simpa using this
  · have h1 := default_otherOutput e he.1
    rw [hty] at h1
    constructor
    · rintro rfl; exact absurd rfl h1
    · rintro (⟨rfl, _⟩ | ⟨rfl, _⟩)
      · exact absurd (show ("mv", Data.d_mv) ∈ Data.table by simp [Data.table]) (hn _)
      · exact absurd (show ("sort", Data.d_sort) ∈ Data.table by simp [Data.table]) (hn _)

/-- In a parsed `mv` or `sort` invocation `-t` and `-T` come with an argument. -/
theorem mv_t_option {s : String} {inv : CommandInvocationInitial} (h : parse s = .ok inv) :
    (inv.cmdName = "mv" → Has inv "-t" → ∃ a, .option "-t" a ∈ inv.flagOptionList) ∧
    (inv.cmdName = "sort" → Has inv "-T" → ∃ a, .option "-T" a ∈ inv.flagOptionList) := by
  obtain ⟨name, ws, d, hs, hp, hd, rfl⟩ := parse_ok h
  have hmv : "-t" ∉ setOfAllFlags Data.d_mv := by decide +kernel
  have hsort : "-T" ∉ setOfAllFlags Data.d_sort := by decide +kernel
  constructor
  · rintro rfl (hf | hf)
    · have := derives_flag_declared (derives_parseLoop d ws) _ hf
      rw [databaseFor_unique hd (databaseFor_table (show ("mv", Data.d_mv) ∈ Data.table by simp [Data.table])),
        ← mem_setOfAllFlags] at this
      exact absurd this hmv
    · exact hf
  · rintro rfl (hf | hf)
    · have := derives_flag_declared (derives_parseLoop d ws) _ hf
      rw [databaseFor_unique hd (databaseFor_table (show ("sort", Data.d_sort) ∈ Data.table by simp [Data.table])),
        ← mem_setOfAllFlags] at this
      exact absurd this hsort
    · exact hf

/-- Typers with other-output access among the flag and option typers. -/
theorem otherOutput_flags {c : CommandInvocationInitial} (hs : '/' ∉ c.cmdName.toList) {ts : List Typer} (h : flagoptionListTyper c = .ok ts) :
    (.fileStd .otherOutput ∈ ts) ↔ (c.cmdName = "mv" ∧ ∃ a, .option "-t" a ∈ c.flagOptionList) ∨
      (c.cmdName = "sort" ∧ ∃ a, .option "-T" a ∈ c.flagOptionList) := by
  obtain ⟨_, _, hlen, hcls⟩ := typers_spec h
  obtain ⟨d, hd⟩ := databaseFor_exists c.cmdName
  constructor
  · intro hm
    obtain ⟨k, hk⟩ := List.mem_iff_getElem?.1 hm
    have hkl : k < c.flagOptionList.length := by
      have := (List.getElem?_eq_some_iff.1 hk).1; omega
    obtain ⟨t, ht, hc⟩ := hcls d hd k _ (List.getElem?_eq_getElem hkl)
    rw [hk] at ht; cases ht
    have hmem := List.getElem_mem hkl
    revert hc hmem
    generalize c.flagOptionList[k] = fo
    intro hc hmem
    cases hc with
    | option he ha =>
        rcases (otherOutput_option hs hd he ha).1 rfl with ⟨h1, rfl⟩ | ⟨h1, rfl⟩
        · exact .inl ⟨h1, _, hmem⟩
        · exact .inr ⟨h1, _, hmem⟩
  · intro hx
    have : ∃ n a, .option n a ∈ c.flagOptionList ∧
        ((c.cmdName = "mv" ∧ n = "-t") ∨ (c.cmdName = "sort" ∧ n = "-T")) := by
      rcases hx with ⟨h1, a, h2⟩ | ⟨h1, a, h2⟩
      · exact ⟨_, a, h2, .inl ⟨h1, rfl⟩⟩
      · exact ⟨_, a, h2, .inr ⟨h1, rfl⟩⟩
    obtain ⟨n, a, hm, hn⟩ := this
    obtain ⟨k, hk⟩ := List.mem_iff_getElem?.1 hm
    obtain ⟨t, ht, hc⟩ := hcls d hd k _ hk
    cases hc with
    | option he ha =>
        rw [(otherOutput_option hs hd he ha).2 hn] at ht
        exact List.mem_of_getElem? ht

theorem hasOtherOutputs_iff (i : InputOutputInfo) :
    i.hasOtherOutputs = true ↔ .fileStd .otherOutput ∈ i.flagoptionListTyper ∨
      .fileStd .otherOutput ∈ i.operandListTyper := by
  unfold InputOutputInfo.hasOtherOutputs
  rw [List.any_eq_true, ← List.mem_append]
  constructor
  · rintro ⟨t, ht, h⟩
    cases t with
    | fileStd a => cases a <;> first | exact ht | (simp [AccessKind.isOtherOutput] at h)
    | argString => simp at h
    | plainString => simp at h
  · intro h
    exact ⟨_, h, by simp [AccessKind.isOtherOutput]⟩

theorem hasAccess_typedArg (a : AccessKind) (t : Typer) (s : String) :
    HasAccess a (typedArg t s) ↔ t = .fileStd a := by
  cases t with
  | fileStd b =>
      simp only [typedArg, fileOf]
      by_cases h : s = "-"
      · subst h; cases b <;> simp [HasAccess]
      · simp [h, HasAccess]
  | argString => simp [typedArg, HasAccess]
  | plainString => simp [typedArg, HasAccess]

theorem mem_zipWith_iff {α β γ : Type} (f : α → β → γ) (l : List α) (m : List β) (x : γ) :
    x ∈ List.zipWith f l m ↔ ∃ (k : Nat) (a : α) (b : β), l[k]? = some a ∧ m[k]? = some b ∧ x = f a b := by
  rw [List.mem_iff_getElem?]
  constructor
  · rintro ⟨k, hk⟩
    rw [List.getElem?_zipWith] at hk
    cases ha : l[k]? with
    | none => rw [ha] at hk; simp at hk
    | some a =>
        cases hb : m[k]? with
        | none => rw [ha, hb] at hk; simp at hk
        | some b => rw [ha, hb] at hk; exact ⟨k, a, b, ha, hb, by simpa using hk.symm⟩
  · rintro ⟨k, a, b, ha, hb, rfl⟩
    exact ⟨k, by rw [List.getElem?_zipWith, ha, hb]⟩

/-- Operands with an access kind come from operand typers with that kind. -/
theorem operand_access_iff {ops : List String} {ts : List Typer} (hl : ts.length = ops.length) (a : AccessKind) :
    (∃ arg ∈ List.zipWith (fun s t => typedArg t s) ops ts, HasAccess a arg) ↔ .fileStd a ∈ ts := by
  constructor
  · rintro ⟨arg, hm, ha⟩
    obtain ⟨k, s, t, hs, ht, rfl⟩ := (mem_zipWith_iff _ _ _ _).1 hm
    rw [hasAccess_typedArg] at ha; subst ha
    exact List.mem_of_getElem? ht
  · intro hm
    obtain ⟨k, hk⟩ := List.mem_iff_getElem?.1 hm
    have hkl : k < ops.length := by
      have := (List.getElem?_eq_some_iff.1 hk).1; omega
    exact ⟨_, (mem_zipWith_iff _ _ _ _).2 ⟨k, _, _, List.getElem?_eq_getElem hkl, hk, rfl⟩,
      (hasAccess_typedArg _ _ _).2 rfl⟩

end PashAnn
