import Verif.Spec.LastLine
import Verif.Spec.ParTable
import Verif.Props.Plans

/-! C111: inputs whose last line is not complete. -/

namespace PashAnn
open Spec

theorem rawLines_line {l : List Char} (h : '\n' ∉ l) (t : Text) : rawLines (l ++ '\n' :: t) = l :: rawLines t := by
  induction l with
  | nil => simp [rawLines]
  | cons c l ih =>
      have hc : c ≠ '\n' := fun e => h (e ▸ List.mem_cons_self)
      rw [List.cons_append, rawLines, ih (fun hm => h (List.mem_cons_of_mem _ hm))]
      intro e; exact hc e

theorem rawLines_rest {l : List Char} (h : '\n' ∉ l) (hne : l ≠ []) : rawLines l = [l] := by
  induction l with
  | nil => exact absurd rfl hne
  | cons c l ih =>
      have hc : c ≠ '\n' := fun e => h (e ▸ List.mem_cons_self)
      rw [rawLines]
      · cases l with
        | nil => rfl
        | cons d l => rw [ih (fun hm => h (List.mem_cons_of_mem _ hm)) (by simp)]
      · exact fun e => hc e

/-- Every text consists of complete lines and a rest. -/
theorem text_cases (t : Text) : ∃ ls rest, NoNewlines ls ∧ '\n' ∉ rest ∧ t = complete ls ++ rest := by
  induction t with
  | nil => exact ⟨[], [], by simp [NoNewlines], by simp, rfl⟩
  | cons c t ih =>
      obtain ⟨ls, rest, h1, h2, rfl⟩ := ih
      by_cases hc : c = '\n'
      · subst hc
        refine ⟨"" :: ls, rest, ?_, h2, by simp [complete]⟩
        intro l hl
        rcases List.mem_cons.1 hl with rfl | hl
        · simp
        · exact h1 l hl
      · cases ls with
        | nil => exact ⟨[], c :: rest, h1, by simp [h2, Ne.symm hc], by simp [complete]⟩
        | cons l ls =>
            refine ⟨String.ofList (c :: l.toList) :: ls, rest, ?_, h2, by simp [complete]⟩
            intro l' hl
            rcases List.mem_cons.1 hl with rfl | hl
            · have := h1 l List.mem_cons_self
              simp [this, Ne.symm hc]
            · exact h1 l' (List.mem_cons_of_mem _ hl)

theorem textLines_complete {ls : Stream} (h : NoNewlines ls) (t : Text) : textLines (complete ls ++ t) = ls ++ textLines t := by
  induction ls with
  | nil => rfl
  | cons l ls ih =>
      have hl := h l List.mem_cons_self
      have : complete (l :: ls) ++ t = l.toList ++ '\n' :: (complete ls ++ t) := by simp [complete]
      unfold textLines at ih ⊢
      rw [this, rawLines_line hl, List.map_cons, ih (fun l' hl' => h l' (List.mem_cons_of_mem _ hl'))]
      simp

theorem textLines_own {ls : Stream} (h : NoNewlines ls) : textLines (complete ls) = ls := by
  have := textLines_complete h []
  simpa [textLines, rawLines] using this

theorem complete_append (a b : Stream) : complete (a ++ b) = complete a ++ complete b := by simp [complete]

theorem complete_flatten (l : List Stream) : complete l.flatten = (l.map complete).flatten := by
  induction l with
  | nil => rfl
  | cons a l ih => simp [complete_append, ih]

theorem complete_ends (ls : Stream) : EndsLine (complete ls) := by
  cases h : ls.getLast? with
  | none => exact .inl (by rw [List.getLast?_eq_none_iff.1 h]; rfl)
  | some l =>
      obtain ⟨pre, rfl⟩ := List.getLast?_eq_some_iff.1 h
      right
      simp [complete, ← List.append_assoc]

theorem endsLine_iff {ls : Stream} {rest : Text} (hr : '\n' ∉ rest) : EndsLine (complete ls ++ rest) ↔ rest = [] := by
  constructor
  · intro h
    cases e : rest.getLast? with
    | none => exact List.getLast?_eq_none_iff.1 e
    | some c =>
        obtain ⟨pre, rfl⟩ := List.getLast?_eq_some_iff.1 e
        rcases h with h | h
        · simp at h
        · rw [← List.append_assoc, List.getLast?_concat] at h
          cases h
          exact absurd (by simp) hr
  · rintro rfl
    rw [List.append_nil]; exact complete_ends ls

theorem endsLine_complete {t : Text} (h : EndsLine t) : ∃ ls, NoNewlines ls ∧ t = complete ls := by
  obtain ⟨ls, rest, h1, h2, rfl⟩ := text_cases t
  rw [(endsLine_iff h2).1 h]
  exact ⟨ls, h1, by simp⟩

theorem textLines_append {a : Text} (h : EndsLine a) (b : Text) : textLines (a ++ b) = textLines a ++ textLines b := by
  obtain ⟨ls, hp, rfl⟩ := endsLine_complete h
  rw [textLines_complete hp, textLines_own hp]

theorem cutAtLines_tail {a : Text} {l : List Text} (h : CutAtLines (a :: l)) :
    CutAtLines l ∧ (l.flatten ≠ [] → EndsLine a) :=
  ⟨fun b p c e hc => h (a :: b) p c (by rw [e]; rfl) hc, fun hc => h [] a l rfl hc⟩

/-- Cutting at line ends cuts the list of lines. -/
theorem textLines_flatten {parts : List Text} (h : CutAtLines parts) : textLines parts.flatten = (parts.map textLines).flatten := by
  induction parts with
  | nil => rfl
  | cons a l ih =>
      obtain ⟨h1, h2⟩ := cutAtLines_tail h
      rw [List.map_cons, List.flatten_cons, List.flatten_cons, ← ih h1]
      by_cases hl : l.flatten = []
      · rw [hl]; simp [textLines, rawLines]
      · exact textLines_append (h2 hl) _

/-- Programs that work on texts cut at line ends part by part. -/
theorem flatten_of_append {f : Text → Text} (hnil : f [] = []) (hf : ∀ a b, EndsLine a → f (a ++ b) = f a ++ f b)
    {parts : List Text} (h : CutAtLines parts) : f parts.flatten = (parts.map f).flatten := by
  induction parts with
  | nil => exact hnil
  | cons a l ih =>
      obtain ⟨h1, h2⟩ := cutAtLines_tail h
      rw [List.map_cons, List.flatten_cons, List.flatten_cons, ← ih h1]
      by_cases hl : l.flatten = []
      · rw [hl, hnil]; simp
      · exact hf _ _ (h2 hl)

section
variable {texts : ProgramsOn Char} {lines : Programs}

theorem completes_output (hc : Completes texts lines) (env : IOVar → Text) {c : CommandInvocationWithIOVars} (hn : c.cmdName ≠ "cat") :
    output texts env c = complete (output lines (fun u => textLines (env u)) c) := by
  unfold output
  rw [hc.others _ _ _ _ hn, List.map_map]
  rfl

theorem completes_sequential (hc : Completes texts lines) {c : CommandInvocationWithIOVars} (hn : c.cmdName ≠ "cat") (x : Text) :
    sequential texts c x = complete (sequential lines c (textLines x)) := hc.others _ _ _ _ hn

theorem textLines_noNewlines (t : Text) : NoNewlines (textLines t) := by
  obtain ⟨ls, rest, h1, h2, rfl⟩ := text_cases t
  rw [textLines_complete h1]
  intro l hl
  rcases List.mem_append.1 hl with hl | hl
  · exact h1 l hl
  · by_cases hr : rest = []
    · subst hr; simp [textLines, rawLines] at hl
    · unfold textLines at hl
      rw [rawLines_rest h2 hr] at hl
      simp only [List.map_cons, List.map_nil, List.mem_singleton] at hl
      subst hl; simpa using h2

theorem sequential_noNewlines (hl : LinePrograms lines) (c : CommandInvocationWithIOVars) {x : Stream} (hx : NoNewlines x) :
    NoNewlines (sequential lines c x) := hl _ _ _ _ (by intro z hz; rw [List.mem_singleton] at hz; exact hz ▸ hx)

/-- Joining completed outputs joins their lines. -/
theorem joined_lines (hc : Completes texts lines) (hl : LinePrograms lines) {p : Parallelizer} {c : CommandInvocationWithIOVars}
    (hagg : ∀ x y o agg, Unused c x → Unused c y → x ≠ y ∧ o ≠ x ∧ o ≠ y → p.getActualAggregator c [x, y] o = .ok (some agg) →
      agg.cmd.cmdName ≠ "cat") {outs : List Text} {y : Text} (h : Joined texts p c outs y) :
    ∀ louts : List Stream, outs = louts.map complete → (∀ l ∈ louts, NoNewlines l) →
      ∃ ly, NoNewlines ly ∧ y = complete ly ∧ Joined lines p c louts ly := by
  induction h with
  | leaf s =>
      intro louts e hn
      cases louts with
      | nil => cases e
      | cons l louts =>
          cases louts with
          | nil =>
              simp only [List.map_cons, List.map_nil, List.cons.injEq, and_true] at e
              exact ⟨l, hn l List.mem_cons_self, e, .leaf l⟩
          | cons => simp at e
  | @node l r a b x y o agg env _ _ hx hy ho hxy hg ha hb ihl ihr =>
      intro louts e hn
      obtain ⟨ll, lr, rfl, e1, e2⟩ := List.map_eq_append_iff.1 e.symm
      obtain ⟨la, n1, rfl, j1⟩ := ihl ll e1.symm (fun z hz => hn z (List.mem_append_left _ hz))
      obtain ⟨lb, n2, rfl, j2⟩ := ihr lr e2.symm (fun z hz => hn z (List.mem_append_right _ hz))
      refine ⟨output lines (fun u => textLines (env u)) agg.cmd, ?_, completes_output hc env (hagg x y o agg hx hy hxy hg), ?_⟩
      · refine hl _ _ _ _ ?_
        intro z hz
        obtain ⟨u, _, rfl⟩ := List.mem_map.1 hz
        exact textLines_noNewlines _
      · exact .node j1 j2 hx hy ho hxy hg (by show textLines (env x) = la; rw [ha, textLines_own n1])
          (by show textLines (env y) = lb; rw [hb, textLines_own n2])

/-- The plans of which the theorems here are: the command itself on the parts, and concatenation or merging. -/
theorem merge_name {p : Parallelizer} (hp : p.coreAggregatorSpec = sortMerge) {c : CommandInvocationWithIOVars} (hc : OneStream c)
    (hn : c.cmdName ≠ "cat") (x y o : IOVar) (agg : Aggregator) (hx : Unused c x) (hy : Unused c y) (hxy : x ≠ y ∧ o ≠ x ∧ o ≠ y)
    (h : p.getActualAggregator c [x, y] o = .ok (some agg)) : agg.cmd.cmdName ≠ "cat" := by
  obtain ⟨agg', h', he⟩ := sort_aggregator (fun n _ _ _ => [n]) hp hc hx hy hxy
  rw [h] at h'; cases h'
  have := he (fun _ => [])
  unfold output at this
  rw [List.cons.inj this |>.1]
  exact hn

/-- C111, texts and lines: executing a plan that concatenates or merges on texts does what executing it on the lists of lines
does, and every line of the output is complete. -/
theorem C111_lines (hc : Completes texts lines) (hl : LinePrograms lines) {v : CommandInvocationWithIOVars} (hv : OneStream v)
    (hn : v.cmdName ≠ "cat") (hcat : CatProgram lines) {p : Parallelizer}
    (hp : p ∈ bothPlans concatenation ∨ (p.coreMapperSpec = sameCommand ∧ p.infoMapperAggregator = 0 ∧ p.coreAggregatorSpec = mergeSorted))
    {parts : List Text} {y : Text} (h : Executes texts p v parts y) :
    y = complete (textLines y) ∧ Executes lines p v (parts.map textLines) (textLines y) := by
  have hm : p.coreMapperSpec = sameCommand ∧ p.infoMapperAggregator = 0 := by
    rcases hp with hp | hp
    · simp only [bothPlans, List.mem_cons, List.not_mem_nil, or_false] at hp
      rcases hp with rfl | rfl <;> exact ⟨rfl, rfl⟩
    · exact ⟨hp.1, hp.2.1⟩
  rcases hp with hp | hp
  · have e := executes_concatenation hc.cat hv hp h
    have e' : y = complete ((parts.map textLines).map (sequential lines v)).flatten := by
      rw [e, complete_flatten, List.map_map, List.map_map]
      congr 1
      exact List.map_congr_left fun x _ => completes_sequential hc hn x
    have nn : NoNewlines ((parts.map textLines).map (sequential lines v)).flatten := by
      intro l hl'
      obtain ⟨z, hz, hlz⟩ := List.mem_flatten.1 hl'
      obtain ⟨w, hw, rfl⟩ := List.mem_map.1 hz
      obtain ⟨t, _, rfl⟩ := List.mem_map.1 hw
      exact sequential_noNewlines hl v (textLines_noNewlines t) l hlz
    have et : textLines y = ((parts.map textLines).map (sequential lines v)).flatten := by rw [e', textLines_own nn]
    refine ⟨by rw [et]; exact e', ?_⟩
    obtain ⟨ly, hly⟩ := executable_concatenation lines hv hp (parts.map textLines)
    have := executes_concatenation hcat hv hp hly
    rw [et, ← this]; exact hly
  · obtain ⟨runs, rfl, hruns, hrec⟩ := h
    have hk : p.coreAggregatorSpec.kind = .custom2Ary := by rw [hp.2.2]; rfl
    have hj : Joined texts p v (runs.map Prod.snd) y := by
      generalize runs.map Prod.snd = outs at hrec
      cases hrec with
      | concatenate hk' => rw [hk] at hk'; cases hk'
      | tree _ h => exact h
      | adjacent hk' => rw [hk] at hk'; cases hk'
    have ho : runs.map Prod.snd = ((runs.map Prod.fst).map fun t => sequential lines v (textLines t)).map complete := by
      rw [List.map_map, List.map_map]
      exact List.map_congr_left fun r hr => (mapperRun_eq hv hm.1 hm.2 (hruns r hr)).trans (completes_sequential hc hn _)
    obtain ⟨ly, n, rfl, j⟩ := joined_lines hc hl (merge_name hp.2.2 hv hn) hj _ ho (by
      intro l hl'
      obtain ⟨t, _, rfl⟩ := List.mem_map.1 hl'
      exact sequential_noNewlines hl v (textLines_noNewlines t))
    rw [textLines_own n]
    refine ⟨rfl, (runs.map Prod.fst).map (fun t => (textLines t, sequential lines v (textLines t))), ?_, ?_, ?_⟩
    · simp [Function.comp_def]
    · intro r hr
      obtain ⟨t, _, rfl⟩ := List.mem_map.1 hr
      exact mapperRun_exists lines hv hm.1 hm.2 _
    · rw [List.map_map]
      exact .tree hk j

/-- C111: whenever the execution is right for the lines, it is right for the text. -/
theorem C111_right (hc : Completes texts lines) (hl : LinePrograms lines) {v : CommandInvocationWithIOVars} (hv : OneStream v)
    (hn : v.cmdName ≠ "cat") (hcat : CatProgram lines) {p : Parallelizer}
    (hp : p ∈ bothPlans concatenation ∨ (p.coreMapperSpec = sameCommand ∧ p.infoMapperAggregator = 0 ∧ p.coreAggregatorSpec = mergeSorted))
    {x : Text} {parts : List Text} {y : Text} (h : Executes texts p v parts y)
    (hright : ∀ ly, Executes lines p v (parts.map textLines) ly → ly = sequential lines v (textLines x)) :
    y = sequential texts v x := by
  obtain ⟨e, hx⟩ := C111_lines hc hl hv hn hcat hp h
  rw [e, hright _ hx, completes_sequential hc hn]

end

/-- Dealing blocks of a text deals its lines. -/
theorem textDealt_lines {x : Text} {parts : List Text} (h : TextDealt x parts) :
    Dealt (textLines x) (parts.map textLines) ∧ (EndsLine x → ∀ part ∈ parts, EndsLine part) := by
  induction h with
  | start n =>
      refine ⟨by simpa [textLines, rawLines] using Dealt.start (α := String) n, fun _ part hp => .inl ?_⟩
      exact (List.mem_replicate.1 hp).2
  | @block x w b before after _ hx ih =>
      have hends := ih.2 hx
      have hw := hends w (by simp)
      refine ⟨?_, fun hxb part hp => ?_⟩
      · rw [textLines_append hx, List.map_append, List.map_cons, textLines_append hw]
        refine .block ?_
        have := ih.1
        rwa [List.map_append, List.map_cons] at this
      · rcases List.mem_append.1 hp with hp | hp
        · exact hends _ (by simp [hp])
        · rcases List.mem_cons.1 hp with rfl | hp
          · by_cases hb : b = []
            · subst hb; simpa using hw
            · right
              rcases hxb with e | e
              · simp at e; exact absurd e.2 hb
              · rw [List.getLast?_append, List.getLast?_eq_some_getLast hb] at e ⊢
                exact e
          · exact hends _ (by simp [hp])

/-- C111, splitting: parts of a text that are cut at line ends are parts of its lines. -/
theorem C111_parts {s : Splitter} {x : Text} {parts : List Text} (h : TextParts s x parts) :
    Split s (textLines x) (parts.map textLines) := by
  cases s with
  | roundRobinUnwrapFlag => exact (textDealt_lines h).1
  | _ =>
      obtain ⟨rfl, hcut⟩ := h
      exact (textLines_flatten hcut).symm

/-- C111 for sort: executing an offered plan on a text whose last line need not be complete gives what sort gives, for all parts that
are cut or dealt at line ends. -/
theorem C111_sort (inv : CommandInvocationInitial) (hn : inv.cmdName = "sort") (p : Parallelizer) (hp : Offered inv p)
    {texts : ProgramsOn Char} {lines : Programs} (hct : Completes texts lines) (hl : LinePrograms lines) (hcat : CatProgram lines)
    (le : List FlagOptionWithIOVar → String → String → Prop) (hprog : SortProgram lines le)
    (v : CommandInvocationWithIOVars) (hb : Belongs inv v) (hcov : Covered "sort" v.flagOptionList) (hv : OneStream v)
    (hstr : strOperands v = []) (hle : LineOrder (le v.flagOptionList)) (x : Text) (parts : List Text)
    (hs : TextParts p.splitter x parts) (y : Text) (h : Executes texts p v parts y) : y = sequential texts v x := by
  have hcn : v.cmdName ≠ "cat" := by rw [hb.1, hn]; decide
  refine C111_right hct hl hv hcn hcat (.inr ?_) h
    (fun ly hly => C55_sort inv hn p hp lines le hprog v hb hcov hv hstr hle _ _ (C111_parts hs) ly hly)
  rcases (sort_offered (.inl hn) hp).2 with rfl | rfl <;> exact ⟨rfl, rfl, rfl⟩

/-- C111 for commands that work line by line and complete the last line. -/
theorem C111_completing {inv : CommandInvocationInitial} {p : Parallelizer} (ho : Offered inv p)
    (hk : p.coreAggregatorSpec.kind = .concatenate) {texts : ProgramsOn Char} {lines : Programs} (hct : Completes texts lines)
    (v : CommandInvocationWithIOVars) (hv : OneStream v) (hn : v.cmdName ≠ "cat") (hlw : LineWise (sequential lines v))
    (x : Text) (parts : List Text) (hs : TextParts p.splitter x parts) (y : Text) (h : Executes texts p v parts y) :
    y = sequential texts v x := by
  have hp := offered_concatenate ho hk
  have hs' : parts.flatten = x ∧ CutAtLines parts := by
    simp only [bothPlans, List.mem_cons, List.not_mem_nil, or_false] at hp
    rcases hp with rfl | rfl <;> exact hs
  have hnil : sequential lines v [] = [] := by
    have := hlw [] []
    simpa using this
  rw [executes_concatenation hct.cat hv hp h, ← hs'.1]
  refine (flatten_of_append ?_ (fun a b ha => ?_) hs'.2).symm
  · rw [completes_sequential hct hn, show textLines [] = [] from rfl, hnil]; rfl
  · rw [completes_sequential hct hn, completes_sequential hct hn, completes_sequential hct hn, textLines_append ha, hlw,
      complete_append]

theorem keeping_complete {f : String → Stream} {ls : Stream} (h : NoNewlines ls) : keeping f (complete ls) = complete (ls.flatMap f) := by
  unfold keeping
  rw [textLines_own h]
  cases e : ls.getLast? with
  | none => rw [List.getLast?_eq_none_iff.1 e]; rfl
  | some l =>
      obtain ⟨pre, rfl⟩ := List.getLast?_eq_some_iff.1 e
      have he : (complete (pre ++ [l])).getLast? = some '\n' := by
        rcases complete_ends (pre ++ [l]) with h' | h'
        · simp [complete] at h'
        · exact h'
      simp only [he, if_true, List.dropLast_concat]
      rw [← complete_append, List.flatMap_append]; simp

theorem keeping_append {f : String → Stream} {a : Text} (ha : EndsLine a) (b : Text) : keeping f (a ++ b) = keeping f a ++ keeping f b := by
  obtain ⟨ls, hp, rfl⟩ := endsLine_complete ha
  rw [keeping_complete hp]
  by_cases hb : b = []
  · subst hb
    rw [List.append_nil, keeping_complete hp]
    simp [keeping, textLines, rawLines, complete]
  · have hne : textLines b ≠ [] := by
      obtain ⟨ls', rest, h1, h2, rfl⟩ := text_cases b
      rw [textLines_complete h1]
      intro e
      obtain ⟨e1, e2⟩ := List.append_eq_nil_iff.1 e
      subst e1
      by_cases hr : rest = []
      · subst hr; exact hb rfl
      · unfold textLines at e2; rw [rawLines_rest h2 hr] at e2; simp at e2
    unfold keeping
    rw [textLines_complete hp, List.dropLast_append_of_ne_nil hne, List.flatMap_append, complete_append, List.append_assoc]
    congr 1
    rw [List.getLast?_append, List.getLast?_append, List.getLast?_eq_some_getLast hne, List.getLast?_eq_some_getLast hb]
    rfl

/-- C111 for commands that work line by line and leave the last line as it is. -/
theorem C111_keeping {inv : CommandInvocationInitial} {p : Parallelizer} (ho : Offered inv p)
    (hk : p.coreAggregatorSpec.kind = .concatenate) {texts : ProgramsOn Char} (hcat : CatProgram texts)
    (v : CommandInvocationWithIOVars) (hv : OneStream v) (f : String → Stream) (hf : ∀ x, sequential texts v x = keeping f x)
    (x : Text) (parts : List Text) (hs : TextParts p.splitter x parts) (y : Text) (h : Executes texts p v parts y) :
    y = sequential texts v x := by
  have hp := offered_concatenate ho hk
  have hs' : parts.flatten = x ∧ CutAtLines parts := by
    simp only [bothPlans, List.mem_cons, List.not_mem_nil, or_false] at hp
    rcases hp with rfl | rfl <;> exact hs
  rw [executes_concatenation hcat hv hp h, ← hs'.1]
  refine (flatten_of_append (by rw [hf]; rfl) (fun a b ha => ?_) hs'.2).symm
  rw [hf, hf, hf, keeping_append ha]

/-- Completing the last line adds a newline exactly if there is none. -/
theorem complete_textLines (t : Text) : (EndsLine t → complete (textLines t) = t) ∧
    (¬ EndsLine t → complete (textLines t) = t ++ ['\n']) := by
  obtain ⟨ls, rest, h1, h2, rfl⟩ := text_cases t
  rw [endsLine_iff h2, textLines_complete h1, complete_append]
  constructor
  · rintro rfl; rfl
  · intro hr
    unfold textLines
    rw [rawLines_rest h2 hr]
    simp [complete]

theorem flatten_ends {parts : List Text} (h : ∀ part ∈ parts, EndsLine part) : EndsLine parts.flatten := by
  induction parts with
  | nil => exact .inl rfl
  | cons a l ih =>
      have hl := ih (fun p hp => h p (List.mem_cons_of_mem _ hp))
      rcases hl with e | e
      · rw [List.flatten_cons, e, List.append_nil]; exact h a List.mem_cons_self
      · right
        rw [List.flatten_cons, List.getLast?_append, e]; rfl

theorem completed_length (parts : List Text) : (parts.map fun t => complete (textLines t)).flatten.length ≥ parts.flatten.length ∧
    ((∃ part ∈ parts, ¬ EndsLine part) → (parts.map fun t => complete (textLines t)).flatten.length ≥ parts.flatten.length + 1) := by
  induction parts with
  | nil => simp
  | cons a l ih =>
      simp only [List.map_cons, List.flatten_cons, List.length_append]
      have ha : (complete (textLines a)).length ≥ a.length ∧ (¬ EndsLine a → (complete (textLines a)).length = a.length + 1) := by
        by_cases he : EndsLine a
        · rw [(complete_textLines a).1 he]; exact ⟨Nat.le_refl _, fun h => absurd he h⟩
        · rw [(complete_textLines a).2 he]; simp
      refine ⟨by omega, ?_⟩
      rintro ⟨part, hp, hpe⟩
      rcases List.mem_cons.1 hp with rfl | hp
      · have := ha.2 hpe; omega
      · have := ih.2 ⟨part, hp, hpe⟩; omega

/-- Completing the parts gives the completed whole exactly if the parts are cut at the ends of lines. -/
theorem completed_iff (parts : List Text) :
    (parts.map fun t => complete (textLines t)).flatten = complete (textLines parts.flatten) ↔ CutAtLines parts := by
  constructor
  · intro e before part after hparts hafter
    apply Classical.byContradiction
    intro hpart
    have hlen : ((parts : List Text).map fun t => complete (textLines t)).flatten.length = (complete (textLines parts.flatten)).length :=
      congrArg List.length e
    clear e
    have hwhole : ¬ EndsLine parts.flatten := by
      intro he
      rw [(complete_textLines _).1 he] at hlen
      have := (completed_length parts).2 ⟨part, by rw [hparts]; simp, hpart⟩
      omega
    have hlast : ¬ EndsLine after.flatten := by
      intro he
      rcases he with he | he
      · exact hafter he
      · refine hwhole (.inr ?_)
        rw [hparts, List.flatten_append, List.flatten_cons, ← List.append_assoc, List.getLast?_append, he]; rfl
    have h2 : ∃ q ∈ after, ¬ EndsLine q := by
      apply Classical.byContradiction
      intro hh
      exact hlast (flatten_ends fun q hq => Classical.byContradiction fun hne => hh ⟨q, hq, hne⟩)
    rw [(complete_textLines _).2 hwhole, hparts] at hlen
    have b1 := (completed_length before).1
    have b2 := (completed_length after).2 h2
    simp only [List.map_append, List.map_cons, List.flatten_append, List.flatten_cons, List.length_append,
      (complete_textLines part).2 hpart, List.length_cons, List.length_nil] at hlen
    omega
  · intro hcut
    refine (flatten_of_append (by rfl) (fun a b ha => ?_) hcut).symm
    rw [textLines_append ha, complete_append]

/-- C111, cutting at line ends is needed: with a command that prints every line and completes the last one, such as `grep ''`, an
execution is right exactly if the parts are cut at line ends. -/
theorem C111_needed {inv : CommandInvocationInitial} {p : Parallelizer} (ho : Offered inv p)
    (hk : p.coreAggregatorSpec.kind = .concatenate) {texts : ProgramsOn Char} {lines : Programs} (hct : Completes texts lines)
    (v : CommandInvocationWithIOVars) (hv : OneStream v) (hn : v.cmdName ≠ "cat") (hid : ∀ x, sequential lines v x = x)
    (parts : List Text) (y : Text) (h : Executes texts p v parts y) :
    y = sequential texts v parts.flatten ↔ CutAtLines parts := by
  have hp := offered_concatenate ho hk
  have hseq : ∀ t, sequential texts v t = complete (textLines t) := fun t => by rw [completes_sequential hct hn, hid]
  rw [executes_concatenation hct.cat hv hp h, hseq, List.map_congr_left (fun t _ => hseq t)]
  exact completed_iff parts

/-- Programs as in the theorems: every program prints the lines that it reads. -/
def lineSample : Programs := fun _ _ _ ins => ins.flatten

/-- The same programs on texts. -/
def textSample : ProgramsOn Char := fun n _ _ ins => if n = "cat" then ins.flatten else complete (ins.map textLines).flatten

example : Completes textSample lineSample ∧ LinePrograms lineSample ∧ CatProgram lineSample ∧
    textSample "grep" [] [""] ["a\nb".toList] = "a\nb\n".toList := by
  refine ⟨⟨fun ins => by simp [textSample], fun n _ _ ins hn => by simp [textSample, hn, lineSample]⟩, ?_, fun _ => rfl, by decide +kernel⟩
  intro _ _ _ ins h l hl
  obtain ⟨x, hx, hlx⟩ := List.mem_flatten.1 hl
  exact h x hx l hlx

/-- The last part need not be complete, and a part in the middle must be. -/
example : TextParts .consecChunks "a\nb\nc".toList ["a\n".toList, [], "b\nc".toList] ∧
    TextParts .roundRobinUnwrapFlag "a\nb\nc".toList ["a\nc".toList, "b\n".toList] ∧
    ¬ CutAtLines ["a\nb".toList, "c\n".toList] ∧ keeping (fun l => [l, l]) "a\nb".toList = "a\na\nb\nb".toList := by
  refine ⟨⟨by decide, ?_⟩, ?_, ?_, by decide +kernel⟩
  · intro before part after e he
    match before, e with
    | [], e => cases e; exact .inr (by decide)
    | [_], e => cases e; exact .inl rfl
    | [_, _], e => cases e; exact absurd rfl he
    | _ :: _ :: _ :: b, e => simp at e
  · have h1 := TextDealt.start 2
    have h2 := TextDealt.block (block := "a\n".toList) (before := []) (after := [[]]) (worker := []) h1 (.inl rfl)
    have h3 := TextDealt.block (block := "b\n".toList) (before := ["a\n".toList]) (after := []) (worker := []) h2 (.inr (by decide))
    exact TextDealt.block (block := "c".toList) (before := []) (after := ["b\n".toList]) (worker := "a\n".toList) h3 (.inr (by decide))
  · intro h
    have := h [] "a\nb".toList ["c\n".toList] rfl (by decide)
    rcases this with h | h <;> exact absurd h (by decide)

end PashAnn
