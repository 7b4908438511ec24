import Verif.Lemmas.Manual
import Verif.Props.IOTable
import Verif.Spec.Effects

/-! The shipped databases compared with the manuals: names that the generators look for, and files in options. -/

namespace PashAnn
open Spec

/-- What becomes of the argument of an option. -/
inductive ArgRole where
  | text
  | read
  | write
deriving DecidableEq, Repr

/-- The role declared in the database. -/
def roleOf : ArgInfo → ArgRole
  | .word _ => .text
  | .withAccess k acc =>
      if k ∈ ["FILE", "DIR", "DIRECTORY"] then
        if acc ∈ ["STREAM_OUTPUT", "OTHER_OUTPUT"] then .write else .read
      else .text

/-- The role according to the manual. -/
def manualRole (name w : String) : ArgRole :=
  if InList readOptions name w then .read else if InList writeOptions name w then .write else .text

/-- Names that the generators look for, and what they stand for. -/
def keys : List (String × List String × List String) :=
  [("awk", ["-f"], ["-f", "--file", "-e", "--source", "-E", "--exec"]),
   ("grep", ["-e", "-f"], ["-e", "--regexp", "-f", "--file"]),
   ("grep", ["-q"], ["-q", "--quiet", "--silent"]), ("mv", ["-t"], ["-t", "--target-directory"]),
   ("sed", ["-e", "-f"], ["-e", "--expression", "-f", "--file"]),
   ("sort", ["--files0-from"], ["--files0-from"]), ("sort", ["-o"], ["-o", "--output"]),
   ("wc", ["--files0-from"], ["--files0-from"])]

/-- What the table says about one spelling. -/
def effectRow (name : String) (d : JsonData) (w : String) (a : Argument) : Bool :=
  decide (Exceptional name w ∨ name = "grep" ∧ w = "--regexp") ||
  (keys.all fun k => decide (k.1 = name →
    ((if a = .nextWord then primaryOption d w else primaryFlag d w) ∈ k.2.1 ↔ w ∈ k.2.2))) &&
  decide (a = .nextWord → (name = "wc" ∧ w = "--files0-from") ∨ (name = "diff" ∧ w ∈ ["-S", "--starting-file"] ∧
      ∀ oe ∈ d.option, oe.names.head? = some (primaryOption d w) → roleOf oe.arg = .read) ∨
    ∀ oe ∈ d.option, oe.names.head? = some (primaryOption d w) → roleOf oe.arg = manualRole name w)

/-- The table. -/
def effectTable : Bool :=
  manuals.all fun p => match Data.table.lookup p.1 with
    | none => false
    | some d => p.2.all fun e => e.all fun wa => effectRow p.1 d wa.1 wa.2

theorem effectTable_true : effectTable = true := by decide +kernel

theorem effect_row {name : String} {page : List ManualEntry} {d : JsonData} (hm : (name, page) ∈ manuals)
    (hd : DatabaseFor name d) {w : String} {a : Argument} (hl : Lists page w a) (hx : ¬ Exceptional name w)
    (hr : ¬ (name = "grep" ∧ w = "--regexp")) :
    (∀ k ∈ keys, k.1 = name →
      ((if a = .nextWord then primaryOption d w else primaryFlag d w) ∈ k.2.1 ↔ w ∈ k.2.2)) ∧
    (a = .nextWord → (name = "wc" ∧ w = "--files0-from") ∨ (name = "diff" ∧ w ∈ ["-S", "--starting-file"] ∧
        ∀ oe ∈ d.option, oe.names.head? = some (primaryOption d w) → roleOf oe.arg = .read) ∨
      ∀ oe ∈ d.option, oe.names.head? = some (primaryOption d w) → roleOf oe.arg = manualRole name w) := by
  have hp := (manual_database hm).1
  have h := effectTable_true
  rw [effectTable, List.all_eq_true] at h
  have h := h _ hm
  cases hl' : Data.table.lookup name with
  | none => simp only [hl'] at h; cases h
  | some d' =>
      simp only [hl'] at h
      have : d' = d := by
        have h1 := (databaseFor_iff _ _ hp).2 hd
        rw [(databaseFor_iff _ _ hp).2 (databaseFor_table (lookup_mem hl'))] at h1
        exact Except.ok.inj h1
      subst this
      obtain ⟨e, he, hw⟩ := hl
      have h := List.all_eq_true.1 (List.all_eq_true.1 h e he) _ hw
      simp only [effectRow, Bool.or_eq_true, Bool.and_eq_true, decide_eq_true_eq, List.all_eq_true] at h
      exact h.resolve_left fun h' => h'.elim hx hr

theorem argClass_role {arg : ArgInfo} {t : Typer} (h : ArgClass arg t) :
    (roleOf arg = .text → t = .argString) ∧
    (roleOf arg = .read → ∃ a, t = .fileStd a ∧ a ∉ [AccessKind.streamOutput, .otherOutput]) ∧
    (roleOf arg = .write → ∃ a, t = .fileStd a ∧ a ∈ [AccessKind.streamOutput, .otherOutput]) := by
  cases h with
  | file hk ha =>
      simp only [roleOf, hk, if_true]
      simp only [List.mem_cons, Prod.mk.injEq, List.not_mem_nil, or_false] at ha
      rcases ha with ⟨rfl, rfl⟩ | ⟨rfl, rfl⟩ | ⟨rfl, rfl⟩ | ⟨rfl, rfl⟩ | ⟨rfl, rfl⟩ | ⟨rfl, rfl⟩ | ⟨rfl, rfl⟩ <;>
        simp
  | text hk => simp only [roleOf, hk, if_false]; simp
  | word => simp [roleOf]

/-- What is known about a typed plain line. -/
structure PlainTyped (name : String) (fs : List FlagOption) (ops : List String) (inv : CommandInvocationInitial)
    (c : CommandInvocationWithIO) : Prop where
  hname : inv.cmdName = name
  hops : inv.operandList = ops
  reads : ∃ i o : Prop, Reads inv c.operandList i o ∧
    (i ∧ c.implicitInput = some stdinStream ∨ ¬ i ∧ c.implicitInput = none) ∧
    (o ∧ c.implicitOutput = some stdoutStream ∨ ¬ o ∧ c.implicitOutput = none)
  key : ∀ k ∈ keys, k.1 = name → ((∃ x ∈ k.2.1, Has inv x) ↔ OneOf fs k.2.2)
  /-- Every option argument is typed according to its role. -/
  toTyped : ∀ w arg, .option w arg ∈ fs → ∃ n t, .option n (typedArg t arg) ∈ c.flagOptionList ∧
    ((name = "wc" ∧ w = "--files0-from") ∨ (name = "diff" ∧ w ∈ ["-S", "--starting-file"] ∧
        ∃ a, t = .fileStd a ∧ a ∉ [AccessKind.streamOutput, .otherOutput]) ∨
      (manualRole name w = .text ∧ t = .argString) ∨
      (manualRole name w = .read ∧ ∃ a, t = .fileStd a ∧ a ∉ [AccessKind.streamOutput, .otherOutput]) ∨
      (manualRole name w = .write ∧ ∃ a, t = .fileStd a ∧ a ∈ [AccessKind.streamOutput, .otherOutput]))
  ofTyped : ∀ n x, .option n x ∈ c.flagOptionList → ∃ w arg t, .option w arg ∈ fs ∧ x = typedArg t arg ∧
    ((name = "wc" ∧ w = "--files0-from") ∨ (name = "diff" ∧ w ∈ ["-S", "--starting-file"] ∧
        ∃ a, t = .fileStd a ∧ a ∉ [AccessKind.streamOutput, .otherOutput]) ∨
      (manualRole name w = .text ∧ t = .argString) ∨
      (manualRole name w = .read ∧ ∃ a, t = .fileStd a ∧ a ∉ [AccessKind.streamOutput, .otherOutput]) ∨
      (manualRole name w = .write ∧ ∃ a, t = .fileStd a ∧ a ∈ [AccessKind.streamOutput, .otherOutput]))

theorem plain_typed {name ws fs ops} (hl : PlainLine name ws fs ops) {inv : CommandInvocationInitial}
    {c : CommandInvocationWithIO} (hp : parse (Shlex.join (name :: ws)) = .ok inv) (ht : Typed inv c) :
    PlainTyped name fs ops inv c := by
  obtain ⟨page, hm, hread⟩ := hl.read
  obtain ⟨d, hd⟩ := databaseFor_exists name
  rw [plain_parse hm hread (fun f hf => (hl.known f hf).1) hl.uniq hd] at hp
  cases hp
  obtain ⟨_, ⟨hlen, hopt⟩, hreads⟩ := C63_table _ c ht
  have hlist := readByManual_listed hread
  have hrole : ∀ w t oe, (∃ arg, .option w arg ∈ fs) → OptionEntryOf d (primaryOption d w) oe → ArgClass oe.arg t →
    ((name = "wc" ∧ w = "--files0-from") ∨ (name = "diff" ∧ w ∈ ["-S", "--starting-file"] ∧
        ∃ a, t = .fileStd a ∧ a ∉ [AccessKind.streamOutput, .otherOutput]) ∨
      (manualRole name w = .text ∧ t = .argString) ∨
      (manualRole name w = .read ∧ ∃ a, t = .fileStd a ∧ a ∉ [AccessKind.streamOutput, .otherOutput]) ∨
      (manualRole name w = .write ∧ ∃ a, t = .fileStd a ∧ a ∈ [AccessKind.streamOutput, .otherOutput])) := by
    rintro w t oe ⟨arg, hw⟩ hoe hcl
    have hlw : Lists page w .nextWord := by
      rcases hlist _ hw with ⟨_, _, h, _⟩ | ⟨_, _, h, h'⟩
      · cases h
      · cases h; exact h'
    have h := (effect_row hm hd hlw (hl.known _ hw).1 (hl.known _ hw).2).2 rfl
    rcases h with h | h | h
    · exact .inl h
    · obtain ⟨h1, h2, h3⟩ := h
      exact .inr (.inl ⟨h1, h2, (argClass_role hcl).2.1 (h3 oe hoe.1 hoe.2)⟩)
    · have h := h oe hoe.1 hoe.2
      obtain ⟨h1, h2, h3⟩ := argClass_role hcl
      rw [h] at h1 h2 h3
      refine .inr (.inr ?_)
      cases hr : manualRole name w with
      | text => exact .inl ⟨rfl, h1 hr⟩
      | read => exact .inr (.inl ⟨rfl, h2 hr⟩)
      | write => exact .inr (.inr ⟨rfl, h3 hr⟩)
  refine ⟨rfl, rfl, hreads, ?_, ?_, ?_⟩
  · intro k hk hkn
    have hiff : ∀ f ∈ fs, ((canonOf d f).getName ∈ k.2.1 ↔ f.getName ∈ k.2.2) := by
      intro f hf
      have hkf := hl.known f hf
      rcases hlist f hf with ⟨w, a, rfl, ha, hw⟩ | ⟨w, a, rfl, hw⟩
      · have := (effect_row hm hd hw hkf.1 hkf.2).1 k hk hkn
        rwa [if_neg ha] at this
      · exact (effect_row hm hd hw hkf.1 hkf.2).1 k hk hkn
    constructor
    · rintro ⟨x, hx, hh | ⟨a, hh⟩⟩
      · obtain ⟨f, hf, he⟩ := List.mem_map.1 hh
        exact ⟨f, hf, (hiff f hf).1 (by rw [he]; exact hx)⟩
      · obtain ⟨f, hf, he⟩ := List.mem_map.1 hh
        exact ⟨f, hf, (hiff f hf).1 (by rw [he]; exact hx)⟩
    · rintro ⟨f, hf, hx⟩
      refine ⟨_, (hiff f hf).2 hx, ?_⟩
      cases f with
      | flag w => exact .inl (List.mem_map.2 ⟨_, hf, rfl⟩)
      | option w a => exact .inr ⟨a, List.mem_map.2 ⟨_, hf, rfl⟩⟩
  · intro w arg hw
    obtain ⟨k, hk, hk'⟩ := List.getElem_of_mem (List.mem_map.2 ⟨_, hw, rfl⟩ : canonOf d (.option w arg) ∈ fs.map (canonOf d))
    obtain ⟨t, hcl, hc⟩ := hopt d hd k _ (List.getElem?_eq_some_iff.2 ⟨hk, hk'⟩)
    cases hcl with
    | option hoe hcl =>
        exact ⟨_, t, List.mem_of_getElem? hc, hrole w t _ ⟨arg, hw⟩ hoe hcl⟩
  · intro n x hx
    obtain ⟨k, hk, hk'⟩ := List.getElem_of_mem hx
    have hk2 : k < fs.length := by rw [hlen] at hk; simpa using hk
    have hf : fs[k] ∈ fs := List.getElem_mem hk2
    obtain ⟨t, hcl, hc⟩ := hopt d hd k (canonOf d fs[k]) (by simp [hk2])
    rw [List.getElem?_eq_some_iff.2 ⟨hk, hk'⟩] at hc
    cases hfk : fs[k] with
    | flag w => rw [hfk] at hc; cases hc
    | option w arg =>
        rw [hfk] at hc hcl hf
        cases hc
        cases hcl with
        | option hoe hcl => exact ⟨w, arg, t, hf, rfl, hrole w t _ ⟨arg, hf⟩ hoe hcl⟩

theorem mem_files {x : ArgWithIO} {a : AccessKind} {l : List String} :
    x ∈ files a l ↔ ∃ s ∈ l, x = .io (fileOf a s) := by
  simp only [files, List.mem_map, eq_comm]

theorem fileOf_file {a a' : AccessKind} {f s : String} : FileWithIO.file f a' = fileOf a s ↔ s ≠ "-" ∧ a' = a ∧ f = s := by
  unfold fileOf
  by_cases h : s = "-"
  · cases a <;> simp [h]
  · simp [h, and_comm]

theorem mem_files_file {f : String} {a a' : AccessKind} {l : List String} :
    .io (.file f a') ∈ files a l ↔ a' = a ∧ f ∈ l ∧ f ≠ "-" := by
  rw [mem_files]
  constructor
  · rintro ⟨s, hs, h⟩
    obtain ⟨h1, h2, rfl⟩ := fileOf_file.1 (ArgWithIO.io.inj h)
    exact ⟨h2, hs, h1⟩
  · rintro ⟨rfl, h, hf⟩
    exact ⟨f, h, by rw [fileOf_file.2 ⟨hf, rfl, rfl⟩]⟩

theorem not_mem_strings {f : FileWithIO} {l : List String} : ¬ .io f ∈ strings l := by
  simp [strings]

/-- The operands announced as inputs. -/
def rawInputs (name : String) (fs : List FlagOption) (ops : List String) : List String :=
  if name = "awk" then afterProgram name fs ops else if name = "col" then ops else readOperands name fs ops

/-- The operands announced as outputs. -/
def rawOutputs (name : String) (fs : List FlagOption) (ops : List String) : List String :=
  if name ∈ ["tee", "rm", "mkfifo"] then ops
  else if name = "uniq" then ops.drop 1
  else if name = "mv" then if OneOf fs ["-t", "--target-directory"] then [] else ops.drop (ops.length - 1)
  else []

theorem manual_names {name ws fs ops} (hl : PlainLine name ws fs ops) : name ∈
    ["awk", "cat", "col", "comm", "cut", "diff", "grep", "head", "mkfifo", "mv", "rm", "sed", "seq", "sort", "tail", "tee",
     "tr", "uniq", "wc", "xargs"] := by
  obtain ⟨page, hm, _⟩ := hl.read
  have : ∀ p ∈ manuals, p.1 ∈ ["awk", "cat", "col", "comm", "cut", "diff", "grep", "head", "mkfifo", "mv", "rm", "sed",
    "seq", "sort", "tail", "tee", "tr", "uniq", "wc", "xargs"] := by decide +kernel
  exact this _ hm

theorem after_grep {fs ops} : afterProgram "grep" fs ops =
    if OneOf fs ["-e", "--regexp", "-f", "--file"] then ops else ops.drop 1 := by
  simp [afterProgram, programOptions]
theorem after_sed {fs ops} : afterProgram "sed" fs ops =
    if OneOf fs ["-e", "--expression", "-f", "--file"] then ops else ops.drop 1 := by
  simp [afterProgram, programOptions]
theorem after_awk {fs ops} : afterProgram "awk" fs ops =
    if OneOf fs ["-f", "--file", "-e", "--source", "-E", "--exec"] then ops else ops.drop 1 := by
  simp [afterProgram, programOptions]

/-- The operands of a typed plain line. -/
theorem plain_operands {name fs ops inv c} (h : PlainTyped name fs ops inv c) (hn : name ∈
    ["awk", "cat", "col", "comm", "cut", "diff", "grep", "head", "mkfifo", "mv", "rm", "sed", "seq", "sort", "tail", "tee",
     "tr", "uniq", "wc", "xargs"]) :
    ∃ text input output, c.operandList = strings text ++ files (if name = "mv" then .otherInput else .streamInput) input ++
        files (if name ∈ ["rm", "mkfifo", "mv"] then .otherOutput else .streamOutput) output ∧
      input = rawInputs name fs ops ∧ output = rawOutputs name fs ops := by
  obtain ⟨hname, hops, ⟨i, o, hr, _⟩, hkey, _, _⟩ := h
  have kgrep := hkey ("grep", ["-e", "-f"], ["-e", "--regexp", "-f", "--file"]) (by simp [keys])
  have ksed := hkey ("sed", ["-e", "-f"], ["-e", "--expression", "-f", "--file"]) (by simp [keys])
  have kawk := hkey ("awk", ["-f"], ["-f", "--file", "-e", "--source", "-E", "--exec"]) (by simp [keys])
  have kmv := hkey ("mv", ["-t"], ["-t", "--target-directory"]) (by simp [keys])
  subst hname hops
  generalize c.operandList = ol at hr
  have hmv : Has inv "-t" ↔ 0 < count inv "-t" := by
    simp only [Has, count, List.countP_pos_iff]
    constructor
    · rintro (h | ⟨a, h⟩)
      · exact ⟨_, h, by simp⟩
      · exact ⟨_, h, by simp⟩
    · rintro ⟨f, hf, h⟩
      cases f with
      | flag n => simp at h; subst h; exact .inl hf
      | option n a => simp at h; subst h; exact .inr ⟨a, hf⟩
  cases hr with
  | filter hc => refine ⟨[], inv.operandList, [], ?_⟩; simp at hc; rcases hc with h | h | h | h <;>
      simp [rawInputs, rawOutputs, readOperands, strings, files, h]
  | wc h => refine ⟨[], inv.operandList, [], ?_⟩; simp [rawInputs, rawOutputs, readOperands, strings, files, h]
  | sort hc =>
      refine ⟨[], inv.operandList, [], ?_⟩; simp at hc; rcases hc with h | h
      · simp [rawInputs, rawOutputs, readOperands, strings, files, h]
      · simp [h] at hn
  | grepOption h hh =>
      have := (kgrep h.symm).1 (by simpa using hh)
      refine ⟨[], inv.operandList, [], ?_⟩
      simp [rawInputs, rawOutputs, readOperands, strings, files, h, after_grep, this]
  | awkOption h hh =>
      have := (kawk h.symm).1 (by simpa using hh)
      refine ⟨[], inv.operandList, [], ?_⟩
      simp [rawInputs, rawOutputs, strings, files, h, after_awk, this]
  | sedOption h hh =>
      have := (ksed h.symm).1 (by simpa using hh)
      refine ⟨[], inv.operandList, [], ?_⟩
      simp [rawInputs, rawOutputs, readOperands, strings, files, h, after_sed, this]
  | @grepOperand x xs h hh ho =>
      have : ¬ OneOf fs ["-e", "--regexp", "-f", "--file"] := fun hg => hh (by simpa using (kgrep h.symm).2 hg)
      refine ⟨[x], xs, [], ?_⟩
      simp [rawInputs, rawOutputs, readOperands, strings, files, h, after_grep, this, ho]
  | @awkOperand x xs h hh ho =>
      have : ¬ OneOf fs ["-f", "--file", "-e", "--source", "-E", "--exec"] :=
        fun hg => hh (by simpa using (kawk h.symm).2 hg)
      refine ⟨[x], xs, [], ?_⟩
      simp [rawInputs, rawOutputs, strings, files, h, after_awk, this, ho]
  | @sedOperand x xs h hh ho =>
      have : ¬ OneOf fs ["-e", "--expression", "-f", "--file"] := fun hg => hh (by simpa using (ksed h.symm).2 hg)
      refine ⟨[x], xs, [], ?_⟩
      simp [rawInputs, rawOutputs, readOperands, strings, files, h, after_sed, this, ho]
  | both hc =>
      refine ⟨[], inv.operandList, [], ?_⟩; simp at hc; rcases hc with h | h | h | h | h
      · simp [h] at hn
      · simp [h] at hn
      · simp [rawInputs, rawOutputs, strings, files, h]
      · simp [h] at hn
      · simp [h] at hn
  | operandsOnly hc =>
      refine ⟨[], inv.operandList, [], ?_⟩; simp at hc; rcases hc with h | h
      · simp [rawInputs, rawOutputs, readOperands, strings, files, h]
      · simp [h] at hn
  | @comm x y h ho =>
      refine ⟨[], [x, y], [], ?_⟩; simp [rawInputs, rawOutputs, readOperands, strings, files, h, ho]
  | stringFilter hc =>
      refine ⟨inv.operandList, [], [], ?_⟩; simp at hc; rcases hc with h | h | h
      · simp [rawInputs, rawOutputs, readOperands, strings, files, h]
      · simp [h] at hn
      · simp [rawInputs, rawOutputs, readOperands, strings, files, h]
  | seq h =>
      refine ⟨inv.operandList, [], [], ?_⟩; simp [rawInputs, rawOutputs, readOperands, strings, files, h]
  | setDiff h => simp [h] at hn
  | tee h =>
      refine ⟨[], [], inv.operandList, ?_⟩; simp [rawInputs, rawOutputs, readOperands, strings, files, h]
  | remove hc =>
      refine ⟨[], [], inv.operandList, ?_⟩; simp at hc; rcases hc with h | h <;>
      simp [rawInputs, rawOutputs, readOperands, strings, files, h]
  | @mvOperand xs x h h0 ho =>
      have : ¬ OneOf fs ["-t", "--target-directory"] := fun hg => by
        have := hmv.1 (by simpa using (kmv h.symm).2 hg)
        omega
      refine ⟨[], xs, [x], ?_⟩; simp [rawInputs, rawOutputs, readOperands, strings, files, h, ho, this]
  | mvOption h h1 =>
      have : OneOf fs ["-t", "--target-directory"] := (kmv h.symm).1 ⟨_, by simp, hmv.2 (by omega)⟩
      refine ⟨[], inv.operandList, [], ?_⟩; simp [rawInputs, rawOutputs, readOperands, strings, files, h, this]
  | uniq0 h ho => refine ⟨[], [], [], ?_⟩; simp [rawInputs, rawOutputs, readOperands, strings, files, h, ho]
  | @uniq1 x h ho => refine ⟨[], [x], [], ?_⟩; simp [rawInputs, rawOutputs, readOperands, strings, files, h, ho]
  | @uniq2 x y h ho => refine ⟨[], [x], [y], ?_⟩; simp [rawInputs, rawOutputs, readOperands, strings, files, h, ho]

/-- Files mentioned by a typed plain line. -/
theorem plain_mentions {name fs ops inv c} (h : PlainTyped name fs ops inv c) {f : String} {a : AccessKind}
    (hm : Mentions c (.file f a)) : .io (.file f a) ∈ c.operandList ∨ ∃ n, .option n (.io (.file f a)) ∈ c.flagOptionList := by
  obtain ⟨_, _, ⟨_, _, _, hi, ho⟩, _⟩ := h
  rcases hm with hm | hm | hm | hm
  · exact .inl hm
  · exact .inr hm
  · rcases hi with ⟨_, hi⟩ | ⟨_, hi⟩ <;> rw [hi] at hm <;> cases hm
  · rcases ho with ⟨_, ho⟩ | ⟨_, ho⟩ <;> rw [ho] at hm <;> cases hm

theorem manualRole_read {name w : String} : manualRole name w = .read ↔ InList readOptions name w := by
  unfold manualRole; split <;> simp [*]; split <;> simp

theorem manualRole_write {name w : String} : manualRole name w = .write ↔ InList writeOptions name w := by
  have key : ∀ p ∈ readOptions, ∀ q ∈ writeOptions, p.1 = q.1 → ∀ x ∈ p.2, x ∉ q.2 := by decide +kernel
  unfold manualRole
  by_cases h : InList readOptions name w
  · simp only [h, if_true]
    refine ⟨fun h => (by cases h), fun h' => ?_⟩
    obtain ⟨p, hp, rfl, hw⟩ := h
    obtain ⟨q, hq, hqn, hw'⟩ := h'
    exact absurd hw' (key p hp q hq hqn.symm w hw)
  · simp only [h, if_false]; split <;> simp [*]

/-- When standard input is announced as the implicit input. -/
def rawStdin (name : String) (fs : List FlagOption) (ops : List String) : Prop :=
  (name ∈ ["cat", "cut", "head", "tail", "uniq", "wc"] ∧ ops = []) ∨
  (name = "sort" ∧ ops = [] ∧ ¬ OneOf fs ["--files0-from"]) ∨
  (name ∈ ["grep", "awk"] ∧ rawInputs name fs ops = []) ∨ name ∈ ["sed", "tr", "tee", "col", "xargs"]

/-- When standard output is announced as the implicit output. -/
def rawStdout (name : String) (fs : List FlagOption) (ops : List String) : Prop :=
  name ∈ ["awk", "cat", "col", "comm", "cut", "diff", "head", "sed", "seq", "tail", "tee", "tr", "wc", "xargs"] ∨
  (name = "grep" ∧ ¬ OneOf fs ["-q", "--quiet", "--silent"]) ∨
  (name = "sort" ∧ ¬ OneOf fs ["-o", "--output"]) ∨ (name = "uniq" ∧ ops.length < 2)

theorem plain_streams {name fs ops inv c} (h : PlainTyped name fs ops inv c) (hn : name ∈
    ["awk", "cat", "col", "comm", "cut", "diff", "grep", "head", "mkfifo", "mv", "rm", "sed", "seq", "sort", "tail", "tee",
     "tr", "uniq", "wc", "xargs"]) :
    (rawStdin name fs ops ∧ c.implicitInput = some stdinStream ∨ ¬ rawStdin name fs ops ∧ c.implicitInput = none) ∧
    (rawStdout name fs ops ∧ c.implicitOutput = some stdoutStream ∨
      ¬ rawStdout name fs ops ∧ c.implicitOutput = none) ∧
    (name = "wc" → ¬ OneOf fs ["--files0-from"]) := by
  obtain ⟨hname, hops, ⟨i, o, hr, hi, ho⟩, hkey, _, _⟩ := h
  have kgrep := hkey ("grep", ["-e", "-f"], ["-e", "--regexp", "-f", "--file"]) (by simp [keys])
  have kq := hkey ("grep", ["-q"], ["-q", "--quiet", "--silent"]) (by simp [keys])
  have kawk := hkey ("awk", ["-f"], ["-f", "--file", "-e", "--source", "-E", "--exec"]) (by simp [keys])
  have ko := hkey ("sort", ["-o"], ["-o", "--output"]) (by simp [keys])
  have ks0 := hkey ("sort", ["--files0-from"], ["--files0-from"]) (by simp [keys])
  have kw0 := hkey ("wc", ["--files0-from"], ["--files0-from"]) (by simp [keys])
  subst hname hops
  suffices hh : (i ↔ rawStdin inv.cmdName fs inv.operandList) ∧ (o ↔ rawStdout inv.cmdName fs inv.operandList) ∧
      (inv.cmdName = "wc" → ¬ OneOf fs ["--files0-from"]) by
    rw [← hh.1, ← hh.2.1]; exact ⟨hi, ho, hh.2.2⟩
  clear hi ho hkey
  generalize c.operandList = ol at hr
  cases hr with
  | filter hc => simp at hc; rcases hc with h | h | h | h <;> simp [rawStdin, rawStdout, h]
  | wc h hw =>
      have : ¬ OneOf fs ["--files0-from"] := fun hg => hw (by simpa using (kw0 h.symm).2 hg)
      simp [rawStdin, rawStdout, h, this]
  | sort hc =>
      simp at hc; rcases hc with h | h
      · have h1 := ko h.symm
        have h2 := ks0 h.symm
        simp at h1 h2
        simp [rawStdin, rawStdout, h, h1, h2]
      · simp [h] at hn
  | grepOption h hh =>
      have := (kgrep h.symm).1 (by simpa using hh)
      have hq := kq h.symm
      simp at hq
      simp [rawStdin, rawStdout, rawInputs, readOperands, h, after_grep, this, hq]
  | awkOption h hh =>
      have := (kawk h.symm).1 (by simpa using hh)
      simp [rawStdin, rawStdout, rawInputs, h, after_awk, this]
  | sedOption h hh => simp [rawStdin, rawStdout, h]
  | @grepOperand x xs h hh ho =>
      have : ¬ OneOf fs ["-e", "--regexp", "-f", "--file"] := fun hg => hh (by simpa using (kgrep h.symm).2 hg)
      have hq := kq h.symm
      simp at hq
      simp [rawStdin, rawStdout, rawInputs, readOperands, h, after_grep, this, ho, hq]
  | @awkOperand x xs h hh ho =>
      have : ¬ OneOf fs ["-f", "--file", "-e", "--source", "-E", "--exec"] :=
        fun hg => hh (by simpa using (kawk h.symm).2 hg)
      simp [rawStdin, rawStdout, rawInputs, h, after_awk, this, ho]
  | @sedOperand x xs h hh ho => simp [rawStdin, rawStdout, h]
  | both hc =>
      simp at hc; rcases hc with h | h | h | h | h
      · simp [h] at hn
      · simp [h] at hn
      · simp [rawStdin, rawStdout, h]
      · simp [h] at hn
      · simp [h] at hn
  | operandsOnly hc =>
      simp at hc; rcases hc with h | h
      · simp [rawStdin, rawStdout, h]
      · simp [h] at hn
  | @comm x y h ho => simp [rawStdin, rawStdout, h]
  | stringFilter hc =>
      simp at hc; rcases hc with h | h | h
      · simp [rawStdin, rawStdout, h]
      · simp [h] at hn
      · simp [rawStdin, rawStdout, h]
  | seq h => simp [rawStdin, rawStdout, h]
  | setDiff h => simp [h] at hn
  | tee h => simp [rawStdin, rawStdout, h]
  | remove hc => simp at hc; rcases hc with h | h <;> simp [rawStdin, rawStdout, h]
  | @mvOperand xs x h h0 ho => simp [rawStdin, rawStdout, h]
  | mvOption h h1 => simp [rawStdin, rawStdout, h]
  | uniq0 h ho => simp [rawStdin, rawStdout, h, ho]
  | @uniq1 x h ho => simp [rawStdin, rawStdout, h, ho]
  | @uniq2 x y h ho => simp [rawStdin, rawStdout, h, ho]

theorem fileOf_std {a a' : AccessKind} {x : StdDescriptor} {s : String} :
    FileWithIO.std x a' = fileOf a s ↔ s = "-" ∧ a' = a ∧
      x = if a ∈ [AccessKind.streamOutput, .otherOutput] then .stdout else .stdin := by
  unfold fileOf
  by_cases h : s = "-"
  · cases a <;> simp [h, and_comm]
  · simp [h]

/-- Standard streams mentioned by a typed plain line. -/
theorem plain_std {name fs ops inv c} (h : PlainTyped name fs ops inv c) (hn : name ∈
    ["awk", "cat", "col", "comm", "cut", "diff", "grep", "head", "mkfifo", "mv", "rm", "sed", "seq", "sort", "tail", "tee",
     "tr", "uniq", "wc", "xargs"]) :
    ((AnnouncedStdin c → rawStdin name fs ops ∨ "-" ∈ rawInputs name fs ops ∨
        ∃ w, .option w "-" ∈ fs ∧ (InList readOptions name w ∨ name = "diff" ∧ w ∈ ["-S", "--starting-file"])) ∧
      (rawStdin name fs ops ∨ "-" ∈ rawInputs name fs ops ∨ (∃ w, .option w "-" ∈ fs ∧ InList readOptions name w) →
        AnnouncedStdin c)) ∧
    (AnnouncedStdout c ↔ rawStdout name fs ops ∨ "-" ∈ rawOutputs name fs ops ∨
      ∃ w, .option w "-" ∈ fs ∧ InList writeOptions name w) := by
  obtain ⟨hin, hout, hwc⟩ := plain_streams h hn
  obtain ⟨tx, _, _, hol, rfl, rfl⟩ := plain_operands h hn
  have hdiff : ∀ w, w ∈ ["-S", "--starting-file"] → ¬ InList writeOptions "diff" w := by decide +kernel
  have hstd : ∀ x a, .io (.std x a) ∈ c.operandList ↔
      (x = .stdin ∧ a = (if name = "mv" then .otherInput else .streamInput) ∧ "-" ∈ rawInputs name fs ops) ∨
      (x = .stdout ∧ a = (if name ∈ ["rm", "mkfifo", "mv"] then .otherOutput else .streamOutput) ∧
        "-" ∈ rawOutputs name fs ops) := by
    intro x a
    rw [hol, List.mem_append, List.mem_append]
    have h1 : ∀ b l, ArgWithIO.io (.std x a) ∈ files b l ↔ "-" ∈ l ∧ a = b ∧
        x = if b ∈ [AccessKind.streamOutput, .otherOutput] then .stdout else .stdin := by
      intro b l
      rw [mem_files]
      constructor
      · rintro ⟨s, hs, he⟩
        obtain ⟨rfl, h2⟩ := fileOf_std.1 (ArgWithIO.io.inj he)
        exact ⟨hs, h2⟩
      · rintro ⟨hs, h2⟩
        exact ⟨_, hs, congrArg _ (fileOf_std.2 ⟨rfl, h2⟩)⟩
    have h2 : ¬ ArgWithIO.io (.std x a) ∈ strings tx := not_mem_strings
    rw [h1, h1]
    simp only [h2, false_or]
    have e1 : (if (if name = "mv" then AccessKind.otherInput else .streamInput) ∈ [AccessKind.streamOutput, .otherOutput]
      then StdDescriptor.stdout else .stdin) = .stdin := by split <;> simp
    have e2 : (if (if name ∈ ["rm", "mkfifo", "mv"] then AccessKind.otherOutput else .streamOutput) ∈
      [AccessKind.streamOutput, .otherOutput] then StdDescriptor.stdout else .stdin) = .stdout := by split <;> simp
    rw [e1, e2]
    constructor
    · rintro (⟨h1, h2, h3⟩ | ⟨h1, h2, h3⟩)
      · exact .inl ⟨h3, h2, h1⟩
      · exact .inr ⟨h3, h2, h1⟩
    · rintro (⟨h1, h2, h3⟩ | ⟨h1, h2, h3⟩)
      · exact .inl ⟨h3, h2, h1⟩
      · exact .inr ⟨h3, h2, h1⟩
  constructor
  · constructor
    · rintro ⟨a, hm | ⟨n, hm⟩ | hm | hm⟩
      · rcases (hstd _ _).1 hm with ⟨_, _, h⟩ | ⟨h, _⟩
        · exact .inr (.inl h)
        · cases h
      · obtain ⟨w, arg, t, hw, he, hr⟩ := h.ofTyped n _ hm
        refine .inr (.inr ⟨w, ?_⟩)
        rcases hr with ⟨rfl, rfl⟩ | ⟨rfl, hr, a', rfl, ha'⟩ | ⟨_, rfl⟩ | ⟨hr, a', rfl, ha'⟩ | ⟨hr, a', rfl, ha'⟩
        · exact absurd ⟨_, hw, by simp [FlagOption.getName]⟩ (hwc rfl)
        · obtain ⟨rfl, _⟩ := fileOf_std.1 (ArgWithIO.io.inj he)
          exact ⟨hw, .inr ⟨rfl, hr⟩⟩
        · cases he
        · obtain ⟨rfl, _⟩ := fileOf_std.1 (ArgWithIO.io.inj he)
          exact ⟨hw, .inl (manualRole_read.1 hr)⟩
        · obtain ⟨_, _, hx⟩ := fileOf_std.1 (ArgWithIO.io.inj he)
          rw [if_pos ha'] at hx
          cases hx
      · rcases hin with ⟨h, _⟩ | ⟨_, h⟩
        · exact .inl h
        · rw [h] at hm; cases hm
      · rcases hout with ⟨_, h⟩ | ⟨_, h⟩ <;> rw [h] at hm <;> cases hm
    · rintro (hs | hs | ⟨w, hw, hs⟩)
      · rcases hin with ⟨_, h⟩ | ⟨h, _⟩
        · exact ⟨_, .inr (.inr (.inl h))⟩
        · exact absurd hs h
      · exact ⟨_, .inl ((hstd _ _).2 (.inl ⟨rfl, rfl, hs⟩))⟩
      · obtain ⟨n, t, hmem, hr⟩ := h.toTyped w "-" hw
        have : ∃ a, t = .fileStd a ∧ a ∉ [AccessKind.streamOutput, .otherOutput] := by
          rcases hr with ⟨rfl, rfl⟩ | ⟨rfl, hr, h⟩ | ⟨hr, _⟩ | ⟨_, h⟩ | ⟨hr, _⟩
          · exact absurd ⟨_, hw, by simp [FlagOption.getName]⟩ (hwc rfl)
          · exact h
          · rw [manualRole_read.2 hs] at hr; cases hr
          · exact h
          · rw [manualRole_read.2 hs] at hr; cases hr
        obtain ⟨a, rfl, ha⟩ := this
        refine ⟨a, .inr (.inl ⟨n, ?_⟩)⟩
        have : typedArg (.fileStd a) "-" = .io (.std .stdin a) :=
          congrArg _ (fileOf_std.2 ⟨rfl, rfl, by rw [if_neg ha]⟩).symm
        rwa [this] at hmem
  · constructor
    · rintro ⟨a, hm | ⟨n, hm⟩ | hm | hm⟩
      · rcases (hstd _ _).1 hm with ⟨h, _⟩ | ⟨_, _, h⟩
        · cases h
        · exact .inr (.inl h)
      · obtain ⟨w, arg, t, hw, he, hr⟩ := h.ofTyped n _ hm
        refine .inr (.inr ⟨w, ?_⟩)
        rcases hr with ⟨rfl, rfl⟩ | ⟨rfl, hr, a', rfl, ha'⟩ | ⟨_, rfl⟩ | ⟨hr, a', rfl, ha'⟩ | ⟨hr, a', rfl, ha'⟩
        · exact absurd ⟨_, hw, by simp [FlagOption.getName]⟩ (hwc rfl)
        · obtain ⟨_, _, hx⟩ := fileOf_std.1 (ArgWithIO.io.inj he)
          rw [if_neg ha'] at hx
          cases hx
        · cases he
        · obtain ⟨_, _, hx⟩ := fileOf_std.1 (ArgWithIO.io.inj he)
          rw [if_neg ha'] at hx
          cases hx
        · obtain ⟨rfl, _⟩ := fileOf_std.1 (ArgWithIO.io.inj he)
          exact ⟨hw, manualRole_write.1 hr⟩
      · rcases hin with ⟨_, h⟩ | ⟨_, h⟩ <;> rw [h] at hm <;> cases hm
      · rcases hout with ⟨h, _⟩ | ⟨_, h⟩
        · exact .inl h
        · rw [h] at hm; cases hm
    · rintro (hs | hs | ⟨w, hw, hs⟩)
      · rcases hout with ⟨_, h⟩ | ⟨h, _⟩
        · exact ⟨_, .inr (.inr (.inr h))⟩
        · exact absurd hs h
      · exact ⟨_, .inl ((hstd _ _).2 (.inr ⟨rfl, rfl, hs⟩))⟩
      · obtain ⟨n, t, hmem, hr⟩ := h.toTyped w "-" hw
        have : ∃ a, t = .fileStd a ∧ a ∈ [AccessKind.streamOutput, .otherOutput] := by
          have hro := manualRole_write.2 hs
          rcases hr with ⟨rfl, rfl⟩ | ⟨rfl, hr, _⟩ | ⟨hr, _⟩ | ⟨hr, _⟩ | ⟨_, h⟩
          · exact absurd ⟨_, hw, by simp [FlagOption.getName]⟩ (hwc rfl)
          · exact absurd hs (hdiff w hr)
          · rw [hro] at hr; cases hr
          · rw [hro] at hr; cases hr
          · exact h
        obtain ⟨a, rfl, ha⟩ := this
        refine ⟨a, .inr (.inl ⟨n, ?_⟩)⟩
        have : typedArg (.fileStd a) "-" = .io (.std .stdout a) :=
          congrArg _ (fileOf_std.2 ⟨rfl, rfl, by rw [if_pos ha]⟩).symm
        rwa [this] at hmem

end PashAnn
