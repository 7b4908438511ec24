import Verif.Spec.Names
import Verif.Props.Runs

/-! C109: outputs with names of inputs. -/

namespace PashAnn
open Spec

/-- The same programs, on streams that hold one element, which is a name and a stream. -/
def asStreams (prog : NamedPrograms) : ProgramsOn (String × Stream) := fun n fl strs ins => [("", prog n fl strs ins.flatten)]

theorem asStreams_output (prog : NamedPrograms) (env : IOVar → String × Stream) (c : CommandInvocationWithIOVars) :
    output (asStreams prog) (fun u => [env u]) c = [("", namedOutput prog env c)] := by
  unfold output asStreams namedOutput
  have : ∀ l : List IOVar, (l.map fun u => [env u]).flatten = l.map env := by
    intro l
    induction l with
    | nil => rfl
    | cons a l ih => simp [ih]
  rw [this]

theorem namedMapper_eq {prog : NamedPrograms} {p : Parallelizer} {c : CommandInvocationWithIOVars} (hc : OneStream c)
    (hp : p.coreMapperSpec = sameCommand) (hp0 : p.infoMapperAggregator = 0) {part : String × Stream} {out : Stream}
    (h : NamedMapperRun prog p c part out) : out = prog c.cmdName c.flagOptionList (strOperands c) [part] := by
  obtain ⟨i, o, m, env, hi, ho, hne, hm, he, rfl⟩ := h
  have := mapperRun_eq (prog := asStreams prog) hc hp hp0 (part := [part]) (out := [("", namedOutput prog env m)])
    ⟨i, o, m, fun u => [env u], hi, ho, hne, hm, congrArg (fun z => [z]) he, (asStreams_output prog env m).symm⟩
  simpa [sequential, asStreams] using this

/-- Every execution of a plan that concatenates gives the outputs on the parts, each found under its name. -/
theorem named_concatenation {prog : NamedPrograms} (hcat : NamedCat prog) {c : CommandInvocationWithIOVars} (hc : OneStream c)
    {p : Parallelizer} (hp : p ∈ bothPlans concatenation) {parts : List (String × Stream)} {y : Stream}
    (h : NamedExecutes prog p c parts y) :
    y = (parts.map fun part => prog c.cmdName c.flagOptionList (strOperands c) [part]).flatten := by
  have hp' : p.coreMapperSpec = sameCommand ∧ p.infoMapperAggregator = 0 ∧ p.coreAggregatorSpec = concatenation := by
    simp only [bothPlans, List.mem_cons, List.not_mem_nil, or_false] at hp
    rcases hp with rfl | rfl <;> exact ⟨rfl, rfl, rfl⟩
  obtain ⟨runs, vars, o, agg, env, rfl, hruns, ho, hagg, henv, rfl⟩ := h
  obtain ⟨agg', ha', _, hn, hf, hop, _⟩ := C47_concatenate p hp'.2.2 c vars o
  rw [hagg] at ha'; cases ha'
  have h' : AggregatorSpec.makeConcatenate.getAggregator c vars o = .ok (some agg) := by
    unfold Parallelizer.getActualAggregator at hagg; rw [hp'.2.2] at hagg; exact hagg
  have hs : strOperands agg.cmd = [] := by
    unfold strOperands; rw [hop, List.filterMap_map]
    exact List.filterMap_eq_nil_iff.2 (fun _ _ => rfl)
  unfold namedOutput
  rw [hn, hf, hs, makeCat_inputs vars o ho c agg h', hcat, List.map_map, List.map_map]
  congr 1
  refine (show _ = runs.map Prod.snd from henv.symm).trans ?_
  exact List.map_congr_left fun r hr => namedMapper_eq hc hp'.1 hp'.2.1 (hruns r hr)

/-- Plans that concatenate can be executed on all parts, under all names. -/
theorem named_exists (prog : NamedPrograms) {c : CommandInvocationWithIOVars} (hc : OneStream c)
    {p : Parallelizer} (hp : p ∈ bothPlans concatenation) (parts : List (String × Stream)) : ∃ y, NamedExecutes prog p c parts y := by
  have hp' : p.coreMapperSpec = sameCommand ∧ p.infoMapperAggregator = 0 ∧ p.coreAggregatorSpec = concatenation := by
    simp only [bothPlans, List.mem_cons, List.not_mem_nil, or_false] at hp
    rcases hp with rfl | rfl <;> exact ⟨rfl, rfl, rfl⟩
  obtain ⟨i, hi, _⟩ := exists_unused c []
  obtain ⟨o, ho, hoi⟩ := exists_unused c [i]
  have hne : o ≠ i := by simpa using hoi
  obtain ⟨ci, hci⟩ := hc.input
  obtain ⟨co, hco, _⟩ := hc.out
  obtain ⟨m, hm, _⟩ := C40_mapper p hp'.1 hp'.2.1 c ci co i o hc.described hc.distinct hci hco hi.1 ho.1 hne
  let runs := parts.map (fun part => (part, namedOutput prog (fun _ => part) m))
  let vars : List IOVar := (List.range parts.length).map Int.ofNat
  let env : IOVar → String × Stream := fun v => ("", (runs.map Prod.snd)[v.toNat]?.getD [])
  have henv : vars.map (fun u => (env u).2) = runs.map Prod.snd := by
    apply List.ext_getElem
    · simp [vars, runs]
    · intro n h1 h2
      simp only [vars, env, List.getElem_map, List.getElem_range]
      have hn : n < (runs.map Prod.snd).length := h2
      simp only [Int.ofNat_eq_natCast, Int.toNat_natCast]
      rw [List.getElem?_eq_getElem hn]
      simp
  obtain ⟨agg, ha, _⟩ := C47_concatenate p hp'.2.2 c vars (-1)
  refine ⟨_, runs, vars, -1, agg, env, by simp [runs, Function.comp_def], ?_, ?_, ha, henv.symm, rfl⟩
  · intro r hr
    obtain ⟨part, _, rfl⟩ := List.mem_map.1 hr
    exact ⟨i, o, m, fun _ => part, hi, ho, hne, hm, rfl, rfl⟩
  · simp only [vars, List.mem_map, not_exists, not_and]
    intro n _ h
    have h' : Int.ofNat n = -1 := h
    cases h'

/-- C109 for commands whose output does not depend on the names of the inputs: every execution of a plan that concatenates gives
what the command gives on the whole input if it does so part by part. -/
theorem C109_nameless {inv : CommandInvocationInitial} {p : Parallelizer} (ho : Offered inv p)
    (hk : p.coreAggregatorSpec.kind = .concatenate) (prog : NamedPrograms) (hcat : NamedCat prog)
    (v : CommandInvocationWithIOVars) (hv : OneStream v) (f : Stream → Stream) (hf : LineWise f)
    (hname : ∀ name x, prog v.cmdName v.flagOptionList (strOperands v) [(name, x)] = f x) (name : String)
    (parts : List (String × Stream)) (y : Stream) (h : NamedExecutes prog p v parts y) :
    y = prog v.cmdName v.flagOptionList (strOperands v) [(name, (parts.map Prod.snd).flatten)] := by
  rw [named_concatenation hcat hv (offered_concatenate ho hk) h, hname, ← lineWise_flatten hf, List.map_map]
  congr 1
  exact List.map_congr_left fun part _ => hname part.1 part.2

/-- An invocation of `grep` with a pattern and one file that has a plan. -/
theorem grep_file {inv : CommandInvocationInitial} {c : CommandInvocationWithIO} {what : IOVar → FileWithIO}
    {v : CommandInvocationWithIOVars} {p : Parallelizer} (hn : inv.cmdName = "grep") (ht : Typed inv c) (hs : StandsFor what c v)
    (ho : Offered inv p) (pat file : String) (hops : inv.operandList = [pat, file]) (hx : ¬ (Has inv "-e" ∨ Has inv "-f")) :
    OneStream v ∧ strOperands v = [pat] ∧ v.cmdName = "grep" ∧ p ∈ bothPlans concatenation := by
  obtain ⟨hname, -, si, so, hr, hin, hout⟩ := C63_table inv c ht
  have hone : OneInOneOut c := (oneInOneOut_iff ht ho (by rw [hn]; decide)).2 (.grepOperand hn hx (by rw [hops]; simp))
  have hq := (offered_facts ho).2.1 hn
  have hol : c.operandList = strings [pat] ++ files .streamInput [file] ∧ so := by
    generalize c.operandList = ol at hr
    cases hr
    case grepOperand o os h1 h2 h3 => rw [hops] at h3; cases h3; exact ⟨rfl, hq⟩
    case grepOption h1 h2 => exact absurd h2 hx
    all_goals simp_all
  have hco : c.implicitOutput = some stdoutStream := by
    rcases hout with h | h
    · exact h.2
    · exact absurd hol.2 h.1
  refine ⟨stands_oneStream hs hone hco (hin.imp And.right And.right), ?_, by rw [hs.name, hname, hn], ?_⟩
  · obtain ⟨vs, hvs, -⟩ := stands_operands (hol.1 ▸ hs.operands)
    unfold strOperands
    rw [hvs]
    simp [List.filterMap_map]
  · obtain ⟨i, hi, hp⟩ := offered_iff.1 ho
    obtain ⟨i', hi', hcom, h1, h2⟩ := C31_grep_decision inv hn
    rw [hi] at hi'; cases hi'
    have hp : p ∈ i.parallelizerList := by
      rcases hp with hp | ⟨hc, _⟩
      · exact hp
      · rw [hcom] at hc; cases hc
    by_cases hd : ¬ Has inv "-q" ∧ ((∃ n ∈ ["-A", "-B", "-C", "-m"], Has inv n) ∨ ¬ ∃ n ∈ ["-L", "-l", "-c", "-n", "-b"], Has inv n)
    · rw [h1 hd] at hp; exact hp
    · rw [h2 hd] at hp; cases hp

theorem append_name {a b l : String} (h : a ++ ":" ++ l = b ++ ":" ++ l) : a = b := by
  have := congrArg String.toList h
  simp only [String.toList_append, List.append_cancel_right_eq] at this
  exact String.toList_inj.1 this

theorem map_name_eq {a b : String} {l : List String} :
    (l.map fun x => a ++ ":" ++ x) = (l.map fun x => b ++ ":" ++ x) ↔ a = b ∨ l = [] := by
  constructor
  · intro h
    cases l with
    | nil => exact .inr rfl
    | cons x l => exact .inl (append_name (List.cons.inj h).1)
  · rintro (rfl | rfl) <;> rfl

theorem flatten_eq_iff {β : Type} {f g : β → Stream} (hl : ∀ b, (f b).length = (g b).length) : ∀ (l : List β),
    (l.map f).flatten = (l.map g).flatten ↔ ∀ b ∈ l, f b = g b
  | [] => by simp
  | b :: l => by
      simp only [List.map_cons, List.flatten_cons, List.forall_mem_cons]
      rw [← flatten_eq_iff hl l]
      constructor
      · intro h; exact List.append_inj h (hl b)
      · rintro ⟨h1, h2⟩; rw [h1, h2]

/-- C109 for `grep` with one file, exactly. If names are asked for, an execution is right if and only if every part in which
something is printed is found under the name of the file; otherwise it is always right. -/
theorem C109_grep_exact {inv : CommandInvocationInitial} {c : CommandInvocationWithIO} {what : IOVar → FileWithIO}
    {v : CommandInvocationWithIOVars} {p : Parallelizer} (hn : inv.cmdName = "grep") (ht : Typed inv c) (hs : StandsFor what c v)
    (ho : Offered inv p) (pat file : String) (hops : inv.operandList = [pat, file]) (hx : ¬ (Has inv "-e" ∨ Has inv "-f"))
    (hcov : ∀ f ∈ v.flagOptionList, f.getName ∈ lineGrepNames) (prog : NamedPrograms) (hcat : NamedCat prog)
    (shown : List FlagOptionWithIOVar → List String → String → List String) (hg : NamedGrep prog shown)
    (parts : List (String × Stream)) (x : Stream) (hsp : Split p.splitter x (parts.map Prod.snd)) (y : Stream)
    (h : NamedExecutes prog p v parts y) :
    y = prog "grep" v.flagOptionList [pat] [(file, x)] ↔
      (ShowsNames v.flagOptionList → ∀ part ∈ parts, part.1 = file ∨ ∀ l ∈ part.2, shown v.flagOptionList [pat] l = []) := by
  obtain ⟨hc, hstr, hcn, hp⟩ := grep_file hn ht hs ho pat file hops hx
  rw [split_concatenation hp] at hsp
  rw [named_concatenation hcat hc hp h, hcn, hstr, ← hsp, hg _ _ _ _ hcov]
  have e : (parts.map fun part => prog "grep" v.flagOptionList [pat] [part]) = parts.map fun part =>
      (part.2.flatMap (shown v.flagOptionList [pat])).map fun l => if ShowsNames v.flagOptionList then part.1 ++ ":" ++ l else l :=
    List.map_congr_left fun part _ => hg _ _ part.1 part.2 hcov
  have e' : ((parts.map Prod.snd).flatten.flatMap (shown v.flagOptionList [pat])).map
      (fun l => if ShowsNames v.flagOptionList then file ++ ":" ++ l else l) = (parts.map fun part =>
      (part.2.flatMap (shown v.flagOptionList [pat])).map fun l => if ShowsNames v.flagOptionList then file ++ ":" ++ l else l).flatten := by
    clear hsp h e
    induction parts with
    | nil => rfl
    | cons a l ih => simp only [List.map_cons, List.flatten_cons, List.flatMap_append, List.map_append, ih]
  rw [e, e', flatten_eq_iff (by intro b; simp)]
  by_cases hsn : ShowsNames v.flagOptionList
  · simp only [hsn, if_true, map_name_eq, List.flatMap_eq_nil_iff, true_implies]
  · simp [hsn]

/-- C109, when a plan is offered: with the options that only choose what is printed for a line, always, also if names are
asked for. -/
theorem C109_offered (inv : CommandInvocationInitial) (hn : inv.cmdName = "grep")
    (hcov : ∀ f ∈ inv.flagOptionList, f.getName ∈ lineGrepNames) (p : Parallelizer) :
    Offered inv p ↔ p ∈ bothPlans concatenation := by
  have hno : ∀ n, n ∉ lineGrepNames → ¬ Has inv n := by
    intro n h hh
    rcases hh with hh | ⟨a, hh⟩
    · exact h (hcov _ hh)
    · exact h (hcov _ hh)
  obtain ⟨i, hi, hcom, h1, -⟩ := C31_grep_decision inv hn
  have hl := h1 ⟨hno _ (by decide), .inr (by
    rintro ⟨n, hm, h⟩
    exact hno n ((by decide : ∀ n ∈ ["-L", "-l", "-c", "-n", "-b"], n ∉ lineGrepNames) n hm) h)⟩
  rw [offered_iff]
  constructor
  · rintro ⟨i', hi', hp⟩
    rw [hi] at hi'; cases hi'
    rcases hp with hp | ⟨hc, -⟩
    · rw [hl] at hp; exact hp
    · rw [hcom] at hc; cases hc
  · intro hp
    exact ⟨i, hi, .inl (by rw [hl]; exact hp)⟩

/-- C109 is false of the code: for `grep -H a f` both plans that concatenate are offered, but whenever something is printed for
a line, running the mapper on that line under another name gives an output that the command line does not give. -/
theorem C109_false : ∃ inv c what v, PlainLine "grep" ["-H", "a", "f"] [.flag "-H"] ["a", "f"] ∧
    parse (Shlex.join ("grep" :: ["-H", "a", "f"])) = .ok inv ∧ Typed inv c ∧ StandsFor what c v ∧
    ∀ p ∈ bothPlans concatenation, Offered inv p ∧ ∀ (prog : NamedPrograms) shown, NamedCat prog → NamedGrep prog shown →
      ∀ l, shown v.flagOptionList ["a"] l ≠ [] → ∀ name ≠ "f", Split p.splitter [l] [[l]] ∧
        (∃ y, NamedExecutes prog p v [(name, [l])] y) ∧
        ∀ y, NamedExecutes prog p v [(name, [l])] y → y ≠ prog "grep" v.flagOptionList ["a"] [("f", [l])] := by
  have ht : Typed ⟨"grep", [.flag "-H"], ["a", "f"]⟩
      ⟨"grep", [.flag "-H"], [.argString "a", .io (.file "f" .streamInput)], none, some stdoutStream⟩ :=
    ⟨⟨[.plainString], [.argString, inT], none, some stdoutStream⟩, by decide +kernel, by decide +kernel⟩
  obtain ⟨what, v, hs⟩ := C90_variables _
  refine ⟨_, _, what, v, ⟨⟨(manuals.lookup "grep").getD [], by decide +kernel, .flag (a := .none) (by unfold Lists; decide +kernel) (by simp)
    (.operands (by unfold OperandWord; decide +kernel))⟩, by decide +kernel, by decide⟩, by decide +kernel, ht, hs, ?_⟩
  have hfl : v.flagOptionList = [.flag "-H"] := by
    have := hs.options
    generalize v.flagOptionList = fl at this
    cases this with
    | cons h t =>
      cases t
      cases h
      rfl
  intro p hp
  have ho : Offered ⟨"grep", [.flag "-H"], ["a", "f"]⟩ p := (C109_offered _ rfl (by decide) p).2 hp
  have hx : ¬ (Has ⟨"grep", [.flag "-H"], ["a", "f"]⟩ "-e" ∨ Has ⟨"grep", [.flag "-H"], ["a", "f"]⟩ "-f") := by
    decide +kernel
  refine ⟨ho, fun prog shown hcat hg l hl name hname => ⟨(split_concatenation hp).2 rfl, ?_, ?_⟩⟩
  · exact named_exists prog (grep_file rfl ht hs ho "a" "f" rfl hx).1 hp _
  · intro y hy e
    have := (C109_grep_exact rfl ht hs ho "a" "f" rfl hx (by rw [hfl]; decide) prog hcat shown hg [(name, [l])] [l]
      ((split_concatenation hp).2 rfl) y hy).1 e (by rw [hfl]; decide) _ List.mem_cons_self
    rcases this with h | h
    · exact hname h
    · exact hl (h l List.mem_cons_self)

/-- Programs as in the theorems: `grep` prints every line, and `cat` concatenates. -/
def namedSample : NamedPrograms := fun n fl _ ins =>
  if n = "grep" then ins.flatMap fun i => i.2.map fun l => if ShowsNames fl then i.1 ++ ":" ++ l else l
  else (ins.map Prod.snd).flatten

example : NamedCat namedSample ∧ NamedGrep namedSample (fun _ _ l => [l]) ∧
    namedSample "grep" [.flag "-H"] ["a"] [("f", ["b"])] = ["f:b"] ∧
    namedSample "grep" [.flag "-H", .flag "-h"] ["a"] [("f", ["b"])] = ["b"] :=
  ⟨fun _ => rfl, fun fl strs name x _ => by simp [namedSample], by decide +kernel, by decide +kernel⟩

/-- The names do not matter for `grep a f`: the hypotheses of `C109_nameless` hold. -/
example : ∀ name x, namedSample "grep" [] ["a"] [(name, x)] = x := by
  intro name x; simp [namedSample, ShowsNames]

end PashAnn
