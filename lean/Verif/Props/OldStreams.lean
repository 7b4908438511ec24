import Verif.Spec.OldStreams
import Verif.Props.Old
import Verif.Props.IOTable

/-! C114: the streams that the older annotations name and those that the library finds. -/

namespace PashAnn
open Spec

theorem access_fileOf (a : AccessKind) (s : String) : (fileOf a s).access = a := by
  unfold fileOf; split
  · cases a <;> rfl
  · rfl

theorem used_strings (l : List String) :
    (strings l).filterMap operandFile = ([] : List FileWithIO) := by
  induction l with
  | nil => rfl
  | cons s l ih => simp [strings, operandFile]

theorem used_files (a : AccessKind) (l : List String) :
    (files a l).filterMap operandFile = l.map (fileOf a) := by
  induction l with
  | nil => rfl
  | cons s l ih => simpa [files, operandFile] using ih

theorem filter_same (a : AccessKind) (l : List String) :
    (l.map (fileOf a)).filter (fun f => f.access = a) = l.map (fileOf a) := by
  rw [List.filter_eq_self]
  intro f hf
  obtain ⟨s, _, rfl⟩ := List.mem_map.1 hf
  simp [access_fileOf]

theorem filter_other {a b : AccessKind} (h : a ≠ b) (l : List String) :
    (l.map (fileOf a)).filter (fun f => f.access = b) = [] := by
  rw [List.filter_eq_nil_iff]
  intro f hf
  obtain ⟨s, _, rfl⟩ := List.mem_map.1 hf
  simp [access_fileOf, h]

/-- Arguments whose dash is a file name. -/
theorem plain_names {a : AccessKind} {l : List String} :
    l.map (OldStream.files.name a false) = l.map (fileOf a) ↔ "-" ∉ l := by
  induction l with
  | nil => simp
  | cons s l ih =>
    simp only [List.map_cons, List.cons.injEq, ih, List.mem_cons, not_or]
    refine and_congr_left fun _ => ?_
    unfold OldStream.files.name fileOf
    by_cases h : s = "-"
    · cases a <;> simp [h]
    · simp [h, eq_comm]

/-- Arguments whose dash is standard input. -/
theorem hyphen_names (l : List String) : l.map (OldStream.files.name .streamInput true) = l.map (fileOf .streamInput) := by
  induction l with
  | nil => rfl
  | cons s l ih =>
    simp only [List.map_cons, List.cons.injEq, ih, and_true]
    unfold OldStream.files.name fileOf
    by_cases h : s = "-" <;> simp [h]

theorem stdin_only {l : List String} : [FileWithIO.std .stdin .streamInput] = l.map (fileOf .streamInput) ↔ l = ["-"] := by
  match l with
  | [] => simp
  | [s] =>
    unfold fileOf
    by_cases h : s = "-" <;> simp [h]
  | _ :: _ :: _ => simp

theorem case_of_mem {a : OldAnnotation} {n : String} {l : List OldAnnotation} (ha : a ∈ oldAnnotations) (hn : a.command = n)
    (h : oldAnnotations.filter (fun a => a.command == n) = l) : a ∈ l := by
  rw [← h, List.mem_filter]; exact ⟨ha, by simp [hn]⟩

theorem case_step {c : OldCase} {cs cmd} {inv : CommandInvocationInitial} {o : OldCase} :
    (OldAnnotation.mk cmd (c :: cs)).case inv = some o ↔
      (c.predicate.holds inv = true ∧ c = o) ∨ (¬ c.predicate.holds inv = true ∧ (OldAnnotation.mk cmd cs).case inv = some o) := by
  unfold OldAnnotation.case
  by_cases h : c.predicate.holds inv = true
  · simp [List.find?, h]
  · simp [List.find?, h]

theorem case_nil {cmd} {inv : CommandInvocationInitial} {o : OldCase} : (OldAnnotation.mk cmd []).case inv = some o ↔ False := by
  unfold OldAnnotation.case; simp

theorem otherwise_holds {inv : CommandInvocationInitial} : OldPredicate.otherwise.holds inv = true ↔ True := by
  simp [OldPredicate.holds]

/-- The standard streams that are used without being named. -/
def implicitStreams (i o : Bool) (a : AccessKind) : List FileWithIO :=
  match a with
  | .streamInput => if i then [.std .stdin .streamInput] else []
  | .streamOutput => if o then [.std .stdout .streamOutput] else []
  | _ => []

theorem used_eq {c : CommandInvocationWithIO} {i o : Prop} [Decidable i] [Decidable o]
    (hi : i ∧ c.implicitInput = some stdinStream ∨ ¬ i ∧ c.implicitInput = none)
    (ho : o ∧ c.implicitOutput = some stdoutStream ∨ ¬ o ∧ c.implicitOutput = none) (a : AccessKind) :
    usedWith c a = implicitStreams (decide i) (decide o) a ++
      (c.operandList.filterMap operandFile).filter fun f => f.access = a := by
  unfold usedWith implicitStreams
  rw [List.filter_append]
  congr 1
  rcases hi with ⟨h1, h2⟩ | ⟨h1, h2⟩ <;> rcases ho with ⟨h3, h4⟩ | ⟨h3, h4⟩ <;> rw [h2, h4] <;>
    cases a <;> simp [h1, h3, stdinStream, stdoutStream, FileWithIO.access]

theorem same_iff {inv : CommandInvocationInitial} {c : CommandInvocationWithIO} {o : OldCase} {i u : Prop} [Decidable i] [Decidable u]
    (hi : i ∧ c.implicitInput = some stdinStream ∨ ¬ i ∧ c.implicitInput = none)
    (hu : u ∧ c.implicitOutput = some stdoutStream ∨ ¬ u ∧ c.implicitOutput = none) {b : AccessKind} {l : List String}
    (hl : c.operandList.filterMap operandFile = l.map (fileOf b)) :
    SameStreams inv c o ↔ ∀ a, o.streams.files inv a = implicitStreams (decide i) (decide u) a ++
      if b = a then l.map (fileOf b) else [] := by
  refine forall_congr' fun a => ?_
  rw [used_eq hi hu, hl]
  by_cases h : b = a
  · subst h; rw [filter_same, if_pos rfl]
  · rw [filter_other h, if_neg h]

theorem same_input {inv : CommandInvocationInitial} {c : CommandInvocationWithIO} {o : OldCase} {i u : Prop} [Decidable i] [Decidable u]
    (hi : i ∧ c.implicitInput = some stdinStream ∨ ¬ i ∧ c.implicitInput = none)
    (hu : u ∧ c.implicitOutput = some stdoutStream ∨ ¬ u ∧ c.implicitOutput = none) {l : List String}
    (hl : c.operandList.filterMap operandFile = l.map (fileOf .streamInput)) (hc : o.streams.configuration = [])
    (ho : o.streams.outputs = [.stdout]) :
    SameStreams inv c o ↔ u ∧ o.streams.inputs.flatMap (·.files inv o.streams.hyphen .streamInput) =
      (if i then [.std .stdin .streamInput] else []) ++ l.map (fileOf .streamInput) := by
  rw [same_iff hi hu hl]
  constructor
  · intro h
    have h1 := h .streamInput
    have h2 := h .streamOutput
    simp only [OldStreams.files, implicitStreams, ho] at h1 h2
    refine ⟨?_, by rw [h1]; simp⟩
    by_cases hu : u
    · exact hu
    · simp [hu, OldStream.files] at h2
  · rintro ⟨h1, h2⟩ a
    cases a
    case streamInput => simp only [OldStreams.files, implicitStreams, h2]; simp
    all_goals simp [OldStreams.files, implicitStreams, ho, hc, h1, OldStream.files]

theorem stdin_inputs {inv : CommandInvocationInitial} {h : Bool} {i : Prop} [Decidable i] {l : List String} :
    [OldStream.stdin].flatMap (·.files inv h .streamInput) = (if i then [.std .stdin .streamInput] else []) ++ l.map (fileOf .streamInput) ↔
      (i ∧ l = []) ∨ (¬ i ∧ l = ["-"]) := by
  by_cases hi : i
  · simp [hi, OldStream.files]
  · simp only [hi, if_false, List.nil_append, false_and, false_or, not_false_eq_true, true_and, ← stdin_only]
    rfl

theorem args_files {inv : CommandInvocationInitial} {h : Bool} {a : AccessKind} :
    [OldStream.args none none].flatMap (·.files inv h a) = inv.operandList.map (OldStream.files.name a h) := by
  simp [OldStream.files, List.take_of_length_le]

theorem same_stdin {inv : CommandInvocationInitial} {c : CommandInvocationWithIO} {o : OldCase} {i u : Prop}
    (hi : i ∧ c.implicitInput = some stdinStream ∨ ¬ i ∧ c.implicitInput = none)
    (hu : u ∧ c.implicitOutput = some stdoutStream ∨ ¬ u ∧ c.implicitOutput = none) {l : List String}
    (hl : c.operandList.filterMap operandFile = l.map (fileOf .streamInput)) {b : Bool} (ho : o.streams = ⟨[.stdin], [], [.stdout], b⟩) :
    SameStreams inv c o ↔ u ∧ ((i ∧ l = []) ∨ (¬ i ∧ l = ["-"])) := by
  classical
  rw [same_input hi hu hl (by rw [ho]) (by rw [ho]), ho, stdin_inputs]

theorem same_filter {inv : CommandInvocationInitial} {c : CommandInvocationWithIO} {o : OldCase} {u : Prop} {l : List String}
    (hi : l = [] ∧ c.implicitInput = some stdinStream ∨ ¬ l = [] ∧ c.implicitInput = none)
    (hu : u ∧ c.implicitOutput = some stdoutStream ∨ ¬ u ∧ c.implicitOutput = none)
    (hl : c.operandList.filterMap operandFile = l.map (fileOf .streamInput)) {b : Bool} (ho : o.streams = ⟨[.stdin], [], [.stdout], b⟩) :
    SameStreams inv c o ↔ u ∧ (l = [] ∨ l = ["-"]) := by
  rw [same_stdin hi hu hl ho]
  by_cases h : l = [] <;> simp [h]

theorem same_args {inv : CommandInvocationInitial} {c : CommandInvocationWithIO} {o : OldCase} {i u : Prop} [Decidable i]
    (hi : i ∧ c.implicitInput = some stdinStream ∨ ¬ i ∧ c.implicitInput = none)
    (hu : u ∧ c.implicitOutput = some stdoutStream ∨ ¬ u ∧ c.implicitOutput = none) {l : List String}
    (hl : c.operandList.filterMap operandFile = l.map (fileOf .streamInput)) {b : Bool}
    (ho : o.streams = ⟨[.args none none], [], [.stdout], b⟩) :
    SameStreams inv c o ↔ u ∧ inv.operandList.map (OldStream.files.name .streamInput b) =
      (if i then [.std .stdin .streamInput] else []) ++ l.map (fileOf .streamInput) := by
  classical
  rw [same_input hi hu hl (by rw [ho]) (by rw [ho]), ho, args_files]

/-- The streams of the commands whose older file has one shape of streams in all its cases. -/
theorem old_simple {inv : CommandInvocationInitial} {a : OldAnnotation} (ha : a ∈ oldAnnotations) (hn : a.command = inv.cmdName)
    {o : OldCase} (ho : a.case inv = some o) :
    (inv.cmdName ∈ ["cut", "head", "tail", "wc", "alt_bigrams_aux", "bigrams_aux", "col", "test_one", "test_two", "tr", "custom_tr",
      "xargs", "awk", "sed", "uniq"] → o.streams = ⟨[.stdin], [], [.stdout], false⟩) ∧
    (inv.cmdName ∈ ["alt_bigram_aux_reduce", "diff"] → o.streams = ⟨[.args none none], [], [.stdout], false⟩) ∧
    (inv.cmdName = "comm" → o.streams = ⟨[.args none none], [], [.stdout], true⟩) ∧
    (inv.cmdName = "seq" → o.streams = ⟨[], [], [.stdout], false⟩) ∧
    (inv.cmdName = "set_diff" → o.streams = ⟨[.stdin], [.arg 0], [.stdout], false⟩) ∧
    (inv.cmdName = "tee" → o.streams = ⟨[.stdin], [], [.stdout, .args none none], false⟩) ∧
    (inv.cmdName = "cat" → o.streams = (if Has inv "-n" then ⟨[.args none none], [], [.stdout], true⟩
      else if inv.operandList = [] then ⟨[.stdin], [], [.stdout], true⟩ else ⟨[.args none none], [], [.stdout], true⟩)) ∧
    (inv.cmdName ∈ ["sort", "custom_sort"] → o.streams =
      if Has inv "-m" then ⟨[.args none none], [], [.stdout], false⟩ else ⟨[.stdin], [], [.stdout], false⟩) ∧
    (inv.cmdName = "grep" → o.cls ≠ .sideEffectful → o.streams =
      if Has inv "-c" ∨ inv.operandList.length = 1 then ⟨[.stdin], [], [.stdout], false⟩ else ⟨[.args none none], [], [.stdout], false⟩) ∧
    (inv.cmdName ∈ ["rm", "mkfifo"] → o.cls = .sideEffectful) ∧ inv.cmdName ≠ "mv" := by
  have hasAny : ∀ n, HasAny inv [n] ↔ Has inv n := fun n => by simp [HasAny]
  have key : ∀ n, inv.cmdName = n → ∀ l, oldAnnotations.filter (fun a => a.command == n) = l → a ∈ l :=
    fun n h l hl => case_of_mem ha (hn.trans h) hl
  refine ⟨fun h => ?_, fun h => ?_, fun h => ?_, fun h => ?_, fun h => ?_, fun h => ?_, fun h => ?_, fun h => ?_, fun h hk => ?_,
    fun h => ?_, fun h => ?_⟩
  · simp only [List.mem_cons, List.not_mem_nil, or_false] at h
    rcases h with h | h | h | h | h | h | h | h | h | h | h | h | h | h | h <;>
    · have := key _ h [_] rfl
      simp only [List.mem_cons, List.not_mem_nil, or_false] at this
      subst this
      simp only [case_step, case_nil, otherwise_holds] at ho
      grind
  · simp only [List.mem_cons, List.not_mem_nil, or_false] at h
    rcases h with h | h <;>
    · have := key _ h [_] rfl
      simp only [List.mem_cons, List.not_mem_nil, or_false] at this
      subst this
      simp only [case_step, case_nil, otherwise_holds] at ho
      grind
  · have := key _ h [_, _] rfl
    simp only [List.mem_cons, List.not_mem_nil, or_false] at this
    rcases this with rfl | rfl <;>
    · simp only [case_step, case_nil, otherwise_holds] at ho
      grind
  · have := key _ h [_] rfl
    simp only [List.mem_cons, List.not_mem_nil, or_false] at this
    subst this
    simp only [case_step, case_nil, otherwise_holds] at ho
    grind
  · have := key _ h [_] rfl
    simp only [List.mem_cons, List.not_mem_nil, or_false] at this
    subst this
    simp only [case_step, case_nil, otherwise_holds] at ho
    grind
  · have := key _ h [_] rfl
    simp only [List.mem_cons, List.not_mem_nil, or_false] at this
    subst this
    simp only [case_step, case_nil, otherwise_holds] at ho
    grind
  · have := key _ h [_] rfl
    simp only [List.mem_cons, List.not_mem_nil, or_false] at this
    subst this
    simp only [case_step, case_nil, otherwise_holds, given_holds, arguments_holds, hasAny, List.length_eq_zero_iff] at ho
    grind
  · simp only [List.mem_cons, List.not_mem_nil, or_false] at h
    rcases h with h | h <;>
    · have := key _ h [_] rfl
      simp only [List.mem_cons, List.not_mem_nil, or_false] at this
      subst this
      simp only [case_step, case_nil, otherwise_holds, given_holds, hasAny] at ho
      grind
  · have := key _ h [_] rfl
    simp only [List.mem_cons, List.not_mem_nil, or_false] at this
    subst this
    simp only [case_step, case_nil, otherwise_holds, given_holds, arguments_holds, hasAny] at ho
    grind
  · simp only [List.mem_cons, List.not_mem_nil, or_false] at h
    rcases h with h | h <;>
    · have := key _ h [_] rfl
      simp only [List.mem_cons, List.not_mem_nil, or_false] at this
      try subst this
      simp only [case_step, case_nil, otherwise_holds] at ho
      grind
  · exact absurd (key _ h [] rfl) List.not_mem_nil

theorem used_tail {o : String} {l : List String} :
    (.argString o :: files .streamInput l).filterMap operandFile = l.map (fileOf .streamInput) := by
  rw [List.filterMap_cons, operandFile, used_files]

/-- C114, exactly: an older annotation and the library name the same streams for the invocations in the table. -/
theorem C114_streams {inv : CommandInvocationInitial} {c : CommandInvocationWithIO} (h : Typed inv c) {a : OldAnnotation}
    (ha : a ∈ oldAnnotations) (hn : a.command = inv.cmdName) {o : OldCase} (ho : a.case inv = some o) (hk : o.cls ≠ .sideEffectful) :
    SameStreams inv c o ↔ StreamsAgree inv := by
  classical
  obtain ⟨-, -, i, u, hr, hi, hu⟩ := C63_table inv c h
  obtain ⟨o1, o2, o3, o4, o5, o6, o7, o8, o9, o10, o11⟩ := old_simple ha hn ho
  generalize hops : c.operandList = ops at hr
  cases hr with
  | filter hc =>
    have hl := hops ▸ used_files .streamInput inv.operandList
    simp only [List.mem_cons, List.not_mem_nil, or_false] at hc
    rcases hc with hc | hc
    · have hs := o7 hc
      by_cases h1 : Has inv "-n"
      · rw [if_pos h1] at hs
        rw [same_args hi hu hl hs, hyphen_names]
        constructor
        · rintro ⟨-, he⟩
          refine .cat hc fun ⟨_, h0⟩ => ?_
          simp [h0] at he
        · intro hh; clear o1 o2 o3 o4 o5 o6 o7 o8 o9 o10; cases hh <;> simp_all
      · by_cases h2 : inv.operandList = []
        · rw [if_neg h1, if_pos h2] at hs
          rw [same_stdin hi hu hl hs]
          exact iff_of_true (by simp [h2]) (.cat hc (by simp [h1]))
        · rw [if_neg h1, if_neg h2] at hs
          rw [same_args hi hu hl hs, hyphen_names]
          exact iff_of_true (by simp [h2]) (.cat hc (by simp [h1]))
    · rw [same_filter hi hu hl (o1 (by rcases hc with hc | hc | hc <;> simp [hc]))]
      constructor
      · rintro ⟨-, hh⟩
        exact .filter (by rcases hc with hc | hc | hc <;> simp [hc]) (by grind)
      · intro hh; clear o1 o2 o3 o4 o5 o6 o7 o8 o9 o10; rcases hc with hc | hc | hc <;> cases hh <;> simp_all
  | wc hc _ =>
    have hl := hops ▸ used_files .streamInput inv.operandList
    rw [same_filter hi hu hl (o1 (by simp [hc]))]
    constructor
    · rintro ⟨-, hh⟩
      exact .filter (by simp [hc]) (by grind)
    · intro hh; clear o1 o2 o3 o4 o5 o6 o7 o8 o9 o10; cases hh <;> simp_all
  | sort hc =>
    have hl := hops ▸ used_files .streamInput inv.operandList
    have hs := o8 hc
    have hc' : inv.cmdName = "sort" ∨ inv.cmdName = "custom_sort" := by simpa using hc
    by_cases h1 : Has inv "-m"
    · rw [if_pos h1] at hs
      rw [same_args hi hu hl hs]
      have : inv.operandList.map (OldStream.files.name .streamInput false) =
          (if inv.operandList = [] ∧ ¬ Has inv "--files0-from" then [.std .stdin .streamInput] else []) ++
            inv.operandList.map (fileOf .streamInput) ↔
          (inv.operandList ≠ [] ∧ "-" ∉ inv.operandList) ∨ (inv.operandList = [] ∧ Has inv "--files0-from") := by
        by_cases h2 : inv.operandList = []
        · by_cases h3 : Has inv "--files0-from" <;> simp [h2, h3]
        · simp only [h2, false_and, if_false, List.nil_append, plain_names, ne_eq, not_false_eq_true, true_and, or_false]
      rw [this]
      constructor
      · rintro ⟨h2, h3⟩; exact .sortMerge hc h1 h2 h3
      · intro hh; clear o1 o2 o3 o4 o5 o6 o7 o8 o9 o10; rcases hc' with hc' | hc' <;> cases hh <;> simp_all
    · rw [if_neg h1] at hs
      rw [same_stdin hi hu hl hs]
      have : ((inv.operandList = [] ∧ ¬ Has inv "--files0-from") ∧ inv.operandList = []) ∨
          (¬ (inv.operandList = [] ∧ ¬ Has inv "--files0-from") ∧ inv.operandList = ["-"]) ↔
          (inv.operandList = [] ∧ ¬ Has inv "--files0-from") ∨ inv.operandList = ["-"] := by
        by_cases h2 : inv.operandList = [] <;> simp [h2]
      rw [this]
      constructor
      · rintro ⟨h2, h3⟩; exact .sort hc h1 h2 h3
      · intro hh; clear o1 o2 o3 o4 o5 o6 o7 o8 o9 o10; rcases hc' with hc' | hc' <;> cases hh <;> simp_all
  | grepOption hc hp =>
    have hl := hops ▸ used_files .streamInput inv.operandList
    have hs := o9 hc hk
    clear o1 o2 o3 o4 o5 o6 o7 o8 o9 o10
    by_cases h1 : Has inv "-c" ∨ inv.operandList.length = 1
    · rw [if_pos h1] at hs
      rw [same_filter hi hu hl hs]
      constructor
      · rintro ⟨h2, h3⟩
        refine .grepOption hc h2 hp ?_
        rcases h3 with h3 | h3
        · exact .inr (.inl ⟨h1.resolve_right (by simp [h3]), h3⟩)
        · exact .inl h3
      · intro hh
        cases hh with
        | grepOption _ h2 _ h3 =>
          refine ⟨h2, ?_⟩
          rcases h3 with h3 | h3 | ⟨h3, h4, _⟩
          · exact .inr h3
          · exact .inl h3.2
          · have := h1.resolve_left h3; omega
        | grepOperand _ _ h2 => exact absurd hp h2
        | _ => simp_all
    · rw [if_neg h1] at hs
      rw [same_args hi hu hl hs]
      have h1c : ¬ Has inv "-c" := fun h => h1 (.inl h)
      have h1l : inv.operandList.length ≠ 1 := fun h => h1 (.inr h)
      have : inv.operandList.map (OldStream.files.name .streamInput false) =
          (if inv.operandList = [] then [.std .stdin .streamInput] else []) ++ inv.operandList.map (fileOf .streamInput) ↔
          (inv.operandList ≠ [] ∧ "-" ∉ inv.operandList) := by
        by_cases h2 : inv.operandList = []
        · simp [h2]
        · simp only [h2, if_false, List.nil_append, plain_names, ne_eq, not_false_eq_true, true_and]
      rw [this]
      constructor
      · rintro ⟨h2, h3, h4⟩
        refine .grepOption hc h2 hp (.inr (.inr ⟨h1c, ?_, h4⟩))
        have := List.length_pos_iff.2 h3; omega
      · intro hh
        cases hh with
        | grepOption _ h2 _ h3 =>
          refine ⟨h2, ?_⟩
          rcases h3 with h3 | h3 | ⟨h3, h4, h5⟩
          · simp [h3] at h1l
          · exact absurd h3.1 h1c
          · exact ⟨by intro h; simp [h] at h4, h5⟩
        | grepOperand _ _ h2 => exact absurd hp h2
        | _ => simp_all
  | awkOption hc hp =>
    have hl := hops ▸ used_files .streamInput inv.operandList
    rw [same_filter hi hu hl (o1 (by simp [hc]))]
    constructor
    · rintro ⟨-, hh⟩
      exact .awkOption hc hp (by grind)
    · intro hh; clear o1 o2 o3 o4 o5 o6 o7 o8 o9 o10; cases hh <;> simp_all
  | sedOption hc hp =>
    have hl := hops ▸ used_files .streamInput inv.operandList
    rw [same_stdin hi hu hl (o1 (by simp [hc]))]
    constructor
    · rintro ⟨-, hh⟩
      exact .sedOption hc hp (by grind)
    · intro hh; clear o1 o2 o3 o4 o5 o6 o7 o8 o9 o10; cases hh <;> simp_all
  | @grepOperand p os hc hp he =>
    have hl := hops ▸ used_tail
    have hs := o9 hc hk
    clear o1 o2 o3 o4 o5 o6 o7 o8 o9 o10
    by_cases h1 : Has inv "-c" ∨ inv.operandList.length = 1
    · rw [if_pos h1] at hs
      rw [same_filter hi hu hl hs]
      constructor
      · rintro ⟨h2, h3⟩
        refine .grepOperand (p := p) hc h2 hp ?_
        rcases h3 with h3 | h3
        · exact .inl (by rw [he, h3])
        · exact .inr ⟨h1.resolve_right (by simp [he, h3]), by rw [he, h3]⟩
      · intro hh
        cases hh with
        | grepOperand _ h2 _ h3 =>
          refine ⟨h2, ?_⟩
          rw [he] at h3
          rcases h3 with h3 | ⟨_, h3⟩ <;> simp_all
        | grepOption _ _ h2 => exact absurd h2 hp
        | _ => simp_all
    · rw [if_neg h1] at hs
      rw [same_args hi hu hl hs]
      refine iff_of_false ?_ ?_
      · rintro ⟨-, hh⟩
        have := congrArg List.length hh
        by_cases h2 : os = []
        · simp [he, h2] at h1
        · simp [he, h2] at this
      · intro hh
        cases hh with
        | grepOperand _ h2 _ h3 =>
          rcases h3 with h3 | ⟨h3, _⟩
          · simp [h3] at h1
          · exact h1 (.inl h3)
        | grepOption _ _ h2 => exact absurd h2 hp
        | _ => simp_all
  | @awkOperand p os hc hp he =>
    have hl := hops ▸ used_tail
    rw [same_filter hi hu hl (o1 (by simp [hc]))]
    constructor
    · rintro ⟨-, hh⟩
      exact .awkOperand (p := p) hc hp (by rw [he]; rcases hh with rfl | rfl <;> simp)
    · intro hh; clear o1 o2 o3 o4 o5 o6 o7 o8 o9 o10; cases hh <;> simp_all <;> grind
  | @sedOperand p os hc hp he =>
    have hl := hops ▸ used_tail
    rw [same_stdin hi hu hl (o1 (by simp [hc]))]
    constructor
    · rintro ⟨-, hh⟩
      exact .sedOperand (p := p) hc hp (by simp_all)
    · intro hh; clear o1 o2 o3 o4 o5 o6 o7 o8 o9 o10; cases hh <;> simp_all
  | both hc =>
    have hl := hops ▸ used_files .streamInput inv.operandList
    rw [same_stdin hi hu hl (o1 (by simp only [List.mem_cons] at hc ⊢; grind))]
    constructor
    · rintro ⟨-, hh⟩
      exact .noOperands hc (by grind)
    · intro hh; clear o1 o2 o3 o4 o5 o6 o7 o8 o9 o10
      simp only [List.mem_cons, List.not_mem_nil, or_false] at hc
      rcases hc with hc | hc | hc | hc | hc <;> cases hh <;> simp_all
  | operandsOnly hc =>
    have hl := hops ▸ used_files .streamInput inv.operandList
    rw [same_args hi hu hl (o2 (by simp only [List.mem_cons] at hc ⊢; grind)), if_neg id, List.nil_append, plain_names]
    constructor
    · rintro ⟨-, hh⟩
      exact .operands (by simp only [List.mem_cons] at hc ⊢; grind) hh
    · intro hh; clear o1 o2 o3 o4 o5 o6 o7 o8 o9 o10
      simp only [List.mem_cons, List.not_mem_nil, or_false] at hc
      rcases hc with hc | hc <;> cases hh <;> simp_all
  | comm hc he =>
    have hl := hops ▸ used_files .streamInput _
    rw [same_args hi hu hl (o3 hc), if_neg id, List.nil_append, hyphen_names, he]
    exact iff_of_true ⟨trivial, rfl⟩ (.comm hc)
  | stringFilter hc =>
    have hl : c.operandList.filterMap operandFile = ([] : List String).map (fileOf .streamInput) := hops ▸ used_strings _
    rw [same_stdin hi hu hl (o1 (by simp only [List.mem_cons] at hc ⊢; grind))]
    exact iff_of_true (by simp) (.strings (by simp only [List.mem_cons] at hc ⊢; grind))
  | seq hc =>
    have hl : c.operandList.filterMap operandFile = ([] : List String).map (fileOf .streamInput) := hops ▸ used_strings _
    have hs := o4 hc
    rw [same_input hi hu hl (by rw [hs]) (by rw [hs]), hs]
    exact iff_of_true (by simp) (.strings (by simp [hc]))
  | @setDiff p hc he =>
    have hl := hops ▸ used_files .configInput [p]
    have hs := o5 hc
    clear o1 o2 o3 o4 o5 o6 o7 o8 o9 o10
    rw [same_iff hi hu hl, hs]
    constructor
    · intro hh
      refine .setDiff hc he fun hp => ?_
      have := hh .configInput
      simp [OldStreams.files, implicitStreams, OldStream.files, OldStream.files.name, he, hp, fileOf] at this
    · intro hh
      cases hh with
      | setDiff _ h1 h2 =>
        rw [he] at h1
        cases h1
        intro b
        cases b <;> simp [OldStreams.files, implicitStreams, OldStream.files, OldStream.files.name, he, fileOf, h2]
      | _ => simp_all
  | tee hc =>
    have hl := hops ▸ used_files .streamOutput inv.operandList
    have hs := o6 hc
    clear o1 o2 o3 o4 o5 o6 o7 o8 o9 o10
    have hout : (OldStreams.mk [.stdin] [] [.stdout, .args none none] false).files inv .streamOutput =
        .std .stdout .streamOutput :: inv.operandList.map (OldStream.files.name .streamOutput false) := by
      rw [OldStreams.files, List.flatMap_cons, args_files]; rfl
    rw [same_iff hi hu hl, hs]
    constructor
    · intro hh
      have := hh .streamOutput
      rw [hout] at this
      simp only [implicitStreams, decide_true, if_true, List.cons_append, List.nil_append, List.cons.injEq, true_and] at this
      exact .tee hc (plain_names.1 this)
    · intro hh
      cases hh with
      | tee _ h1 =>
        intro b
        cases b
        case streamOutput => rw [hout, plain_names.2 h1]; simp [implicitStreams]
        all_goals simp [OldStreams.files, implicitStreams, OldStream.files]
      | _ => simp_all
  | remove hc => exact absurd (o10 hc) hk
  | mvOperand hc _ _ => exact absurd hc o11
  | mvOption hc _ => exact absurd hc o11
  | uniq0 hc he =>
    have hl : c.operandList.filterMap operandFile = ([] : List String).map (fileOf .streamInput) := hops ▸ rfl
    rw [same_stdin hi hu hl (o1 (by simp [hc]))]
    exact iff_of_true (by simp) (.uniq hc (by simp [he]))
  | uniq1 hc he =>
    have hl := hops ▸ used_files .streamInput _
    rw [same_stdin hi hu hl (o1 (by simp [hc]))]
    constructor
    · rintro ⟨-, hh⟩
      exact .uniq hc (by rw [he]; grind)
    · intro hh; clear o1 o2 o3 o4 o5 o6 o7 o8 o9 o10; cases hh <;> simp_all
  | @uniq2 p q hc he =>
    have hs := o1 (by simp [hc])
    clear o1 o2 o3 o4 o5 o6 o7 o8 o9 o10
    have hx : ∀ b, usedWith c b = ([fileOf .streamInput p, fileOf .streamOutput q]).filter fun f => f.access = b := by
      intro b
      rw [used_eq hi hu, hops]
      have : implicitStreams (decide False) (decide False) b = [] := by cases b <;> simp [implicitStreams]
      rw [this]; rfl
    constructor
    · intro hh
      have h1 := hh .streamInput
      have h2 := hh .streamOutput
      rw [hx, hs] at h1 h2
      simp only [OldStreams.files, OldStream.files, List.filter_cons, access_fileOf] at h1 h2
      refine .uniq hc ?_
      have e1 : p = "-" := by
        by_cases e : p = "-"
        · exact e
        · simp [fileOf, e] at h1
      have e2 : q = "-" := by
        by_cases e : q = "-"
        · exact e
        · simp [fileOf, e] at h2
      rw [he, e1, e2]; simp
    · intro hh
      cases hh with
      | uniq _ h1 =>
        simp only [he, List.mem_cons, List.not_mem_nil, or_false, List.cons.injEq, reduceCtorEq, and_false, false_or, and_true] at h1
        intro b
        rw [hx, hs, h1.1, h1.2]
        cases b <;> simp [OldStreams.files, OldStream.files, fileOf, FileWithIO.access]
      | _ => simp_all

theorem wc_typed : Typed ⟨"wc", [], ["f"]⟩ ⟨"wc", [], [.io (.file "f" .streamInput)], none, some stdoutStream⟩ :=
  ⟨⟨[], [inT], none, some stdoutStream⟩, by decide +kernel, by decide +kernel⟩

/-- C114 is false of the code: the older file says that `wc f` reads standard input. -/
theorem C114_false : ∃ inv c a o, parse "wc f" = .ok inv ∧ Typed inv c ∧ a ∈ oldAnnotations ∧ a.command = inv.cmdName ∧
    a.case inv = some o ∧ o.cls ≠ .sideEffectful ∧ ¬ SameStreams inv c o := by
  have hw : oldAnnotations.filter (fun a => a.command == "wc") =
    [⟨"wc", [⟨.otherwise, .pureOnly, none, none, false, ⟨[.stdin], [], [.stdout], false⟩⟩]⟩] := rfl
  have hm : _ ∈ oldAnnotations.filter (fun a => a.command == "wc") := hw ▸ List.mem_singleton.2 rfl
  refine ⟨⟨"wc", [], ["f"]⟩, _, _, _, by decide +kernel, wc_typed, (List.mem_filter.1 hm).1, rfl, rfl, by decide, ?_⟩
  rw [C114_streams wc_typed (List.mem_filter.1 hm).1 rfl rfl (by decide)]
  intro h
  cases h <;> simp_all

/-- `sort -m a b` is an invocation for which the library and the older file name the same streams. -/
example : ∃ inv c a o, parse "sort -m a b" = .ok inv ∧ Typed inv c ∧ a ∈ oldAnnotations ∧ a.command = inv.cmdName ∧
    a.case inv = some o ∧ o.cls ≠ .sideEffectful ∧ SameStreams inv c o ∧
    usedWith c .streamInput = [.file "a" .streamInput, .file "b" .streamInput] := by
  have hw : oldAnnotations.filter (fun a => a.command == "sort") =
    [⟨"sort", [⟨.given ["-m"], .pureOnly, none, none, false, ⟨[.args none none], [], [.stdout], false⟩⟩,
      ⟨.otherwise, .parallelizablePure, some ("sort", ["-m"]), none, true, ⟨[.stdin], [], [.stdout], false⟩⟩]⟩] := rfl
  have hm : _ ∈ oldAnnotations.filter (fun a => a.command == "sort") := hw ▸ List.mem_singleton.2 rfl
  have ht : Typed ⟨"sort", [.flag "-m"], ["a", "b"]⟩
      ⟨"sort", [.flag "-m"], [.io (.file "a" .streamInput), .io (.file "b" .streamInput)], none, some stdoutStream⟩ :=
    ⟨⟨[.plainString], [inT, inT], none, some stdoutStream⟩, by decide +kernel, by decide +kernel⟩
  refine ⟨⟨"sort", [.flag "-m"], ["a", "b"]⟩, _, _, _, by decide +kernel, ht, (List.mem_filter.1 hm).1, rfl, rfl, by decide, ?_, by decide⟩
  rw [C114_streams ht (List.mem_filter.1 hm).1 rfl rfl (by decide)]
  exact .sortMerge (by simp) (by decide) (by decide) (.inl (by decide))

end PashAnn
