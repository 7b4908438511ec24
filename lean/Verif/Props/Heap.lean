import Verif.Lemmas.HeapClient

/-!
C73–C76: invocations as mutable objects. In `Model/Heap.lean` lists, dictionaries and invocations live at addresses, methods
change them in place, and what was changed before an exception stays changed. A client (`Spec/Heap.lean`) makes any sequence
of calls, catching exceptions.
-/

namespace PashAnn
open Spec Heap

/-- A client that has made nothing yet. -/
def newClient : Client := ⟨[], []⟩

/-! ### An example history, used to show that the hypotheses below are met -/

/-- `head -q 1 > 2` as an invocation on variables, and the lists `[5]` and `[6]`. -/
def exampleCalls : List Call :=
  [.newOptions [.flag "-q"], .newList [.var 1], .newDict [(1, .streamInput), (2, .streamOutput)],
    .construct "head" 0 1 none (some 2) 2, .newList [.var 5], .newList [.var 6]]

/-- The state after some calls. -/
def runAll (s : Client) : List Call → Client
  | [] => s
  | c :: cs => runAll (s.call c) cs

/-- The state after `exampleCalls`. -/
def exampleClient : Client := runAll newClient exampleCalls

theorem exampleClient_known : exampleClient.known = [8, 7, 6, 2, 1, 0] := by decide +kernel

theorem exampleHistory : History newClient exampleCalls exampleClient := by
  refine .step (by simp [Call.args]) trivial (.step (by simp [Call.args]) trivial (.step (by simp [Call.args]) trivial ?_))
  refine .step ?_ ?_ (.step (by simp [Call.args]) trivial (.step (by simp [Call.args]) trivial .done))
  · decide +kernel
  · exact ⟨⟨[.flag "-q"], by decide +kernel⟩, ⟨[.var 1], by decide +kernel⟩, [(1, .streamInput), (2, .streamOutput)],
      by decide +kernel⟩

/-! ### C73: only what a call announces is changed -/

/-- C73: whatever a client has done before, a call changes only the objects in `Call.changes`: the receiver of a changing
method and the lists of new variables. This holds also if the call raises. -/
theorem C73_only_announced_changes {cs : List Call} {s : Client} (hh : History newClient cs s) (c : Call)
    (hargs : ∀ a ∈ c.args, a ∈ s.known) (hty : c.Typed s.heap) {a : Addr} (ha : a ∈ s.known) (hn : a ∉ c.changes) :
    valueAt (s.call c).heap a = valueAt s.heap a :=
  (call_good (history_good hh good_empty) c hargs hty).2 a ha hn

/-- C73, over a whole history: an object that is not the target of a call keeps its value. In particular two invocations
never influence each other, nor does an invocation depend on the lists and the dictionary it was made from. -/
theorem C73_independent {cs ds : List Call} {s t : Client} (hh : History newClient cs s) (hst : History s ds t) {a : Addr}
    (ha : a ∈ s.known) (hn : ∀ d ∈ ds, a ∉ d.changes) : valueAt t.heap a = valueAt s.heap a := by
  have hg : Good s.heap s.known := history_good hh good_empty
  clear hh
  induction hst with
  | done => rfl
  | @step s t c cs hargs hty _ ih =>
      have h1 := call_good hg c hargs hty
      rw [ih (call_known ha) (fun d hd => hn d (by simp [hd])) h1.1, h1.2 a ha (hn c (by simp))]

/-- The invocation of the example is not changed when the dictionary it was made from is. -/
example : valueAt (exampleClient.call (.changeDict 2 [])).heap 6 = valueAt exampleClient.heap 6 :=
  C73_only_announced_changes exampleHistory (.changeDict 2 []) (by simp [Call.args, exampleClient_known])
    ⟨[(1, .streamInput), (2, .streamOutput)], by decide +kernel⟩ (by simp [exampleClient_known]) (by simp [Call.changes])

/-- C73: every object a client knows has a value at any time, whatever calls raised before. -/
theorem C73_no_broken_object {cs : List Call} {s : Client} (hh : History newClient cs s) {a : Addr} (ha : a ∈ s.known) :
    ∃ v, valueAt s.heap a = some v :=
  Option.isSome_iff_exists.1 ((history_good hh good_empty).there a ha)

/-! ### C74: in any history a method does what its description on values says -/

theorem valueAt_command {h : Heap} {a : Addr} {c : CommandInvocationWithIOVars} (hv : valueAt h a = some (.command c)) :
    commandAt h a = some c ∧ ∃ o, h[a]? = some (.inv o) := by
  unfold valueAt at hv
  split at hv
  · cases hv
  · cases hv
  · cases hv
  · rename_i o ho
    cases hc : commandAt h a with
    | none => rw [hc] at hv; cases hv
    | some d => rw [hc] at hv; cases hv; exact ⟨rfl, o, ho⟩
  · cases hv

theorem valueAt_list {h : Heap} {a : Addr} {l : List VArg} (hv : valueAt h a = some (.list l)) :
    h[a]? = some (.vars l) := by
  unfold valueAt at hv
  split at hv
  · rename_i x hx; cases hv; exact hx
  · cases hv
  · cases hv
  · cases hc : commandAt h a <;> rw [hc] at hv <;> cases hv
  · cases hv

/-- C74 for substitution: the invocation becomes the one computed on values, and both lists of new variables are used up.
If the computation on values raises, the method raises the same exception. -/
theorem C74_substitute {cs : List Call} {s : Client} (hh : History newClient cs s) {a i o : Addr}
    (ha : a ∈ s.known) (hi : i ∈ s.known) (ho : o ∈ s.known) (hio : i ≠ o) {c : CommandInvocationWithIOVars}
    {is os : List IOVar} (hc : valueAt s.heap a = some (.command c)) (hli : valueAt s.heap i = some (.list (is.map .var)))
    (hlo : valueAt s.heap o = some (.list (os.map .var))) :
    match c.substitute is os with
    | .ok c' => ∃ h, substitute a i o s.heap = (.ok (), h) ∧ valueAt h a = some (.command c') ∧
        valueAt h i = some (.list []) ∧ valueAt h o = some (.list [])
    | .error e => ∃ h, substitute a i o s.heap = (.error e, h) := by
  have hg := history_good hh good_empty
  obtain ⟨hc, x, hx⟩ := valueAt_command hc
  have hm := substitute_sim (hg.full ha hx hc) (valueAt_list hli) (valueAt_list hlo) hi ho (fun b hb => hg.lt hb)
  rw [show decide (i = o) = false by simpa using hio, substBoth_vars] at hm
  cases hr : c.substitute is os with
  | error e =>
      rw [hr] at hm
      obtain ⟨h', -, -, -, e', -⟩ := hm
      exact ⟨h', e'⟩
  | ok c' =>
      rw [hr] at hm
      obtain ⟨h', e', hf, hi', ho', -⟩ := hm
      exact ⟨h', e', valueAt_inv hf.commandAt, by unfold valueAt; rw [hi'], by unfold valueAt; rw [ho']⟩

/-- C74 for substitution when the caller gives one list for both: the outputs get none of its elements. -/
theorem C74_substitute_same_list {cs : List Call} {s : Client} (hh : History newClient cs s) {a i : Addr}
    (ha : a ∈ s.known) (hi : i ∈ s.known) {c : CommandInvocationWithIOVars} {is : List IOVar}
    (hc : valueAt s.heap a = some (.command c)) (hli : valueAt s.heap i = some (.list (is.map .var))) :
    match c.substitute is [] with
    | .ok c' => ∃ h, substitute a i i s.heap = (.ok (), h) ∧ valueAt h a = some (.command c') ∧
        valueAt h i = some (.list [])
    | .error e => ∃ h, substitute a i i s.heap = (.error e, h) := by
  have hg := history_good hh good_empty
  obtain ⟨hc, x, hx⟩ := valueAt_command hc
  have hm := substitute_sim (hg.full ha hx hc) (valueAt_list hli) (valueAt_list hli) hi hi (fun b hb => hg.lt hb)
  have hb : substBoth (decide (i = i)) c (is.map VArg.var) (is.map VArg.var) = c.substitute is [] := by
    rw [← substBoth_vars]
    simp only [decide_true]
    unfold substBoth
    rw [substOne_inputs]
    cases c.substituteInputs is <;> rfl
  rw [hb] at hm
  cases hr : c.substitute is [] with
  | error e =>
      rw [hr] at hm
      obtain ⟨h', -, -, -, e', -⟩ := hm
      exact ⟨h', e'⟩
  | ok c' =>
      rw [hr] at hm
      obtain ⟨h', e', hf, hi', -, -⟩ := hm
      exact ⟨h', e', valueAt_inv hf.commandAt, by unfold valueAt; rw [hi']⟩

theorem method_value {cs : List Call} {s : Client} (hh : History newClient cs s) {a : Addr} (ha : a ∈ s.known)
    {c : CommandInvocationWithIOVars} (hc : valueAt s.heap a = some (.command c)) {fp : VarFun AccessMap}
    {fh : IOVar → HM (List IOVar)} (hF : ∀ m, FSim a m [m] (MapAt m) fp fh) :
    match (do let r ← PashAnn.flatMapAnythingNonNames fp c.accessMap c
              .ok { r.1 with accessMap := r.2 } : Py CommandInvocationWithIOVars) with
    | .ok c' => ∃ h, Heap.flatMapAnythingNonNames a fh s.heap = (.ok (), h) ∧ valueAt h a = some (.command c')
    | .error e => ∃ h, Heap.flatMapAnythingNonNames a fh s.heap = (.error e, h) := by
  have hg := history_good hh good_empty
  obtain ⟨hc, x, hx⟩ := valueAt_command hc
  have hm := method_sim (hF x.accessMap) (hg.full ha hx hc) (fun b hb => hg.lt hb)
  cases hr : PashAnn.flatMapAnythingNonNames fp c.accessMap c with
  | error e =>
      rw [hr] at hm
      obtain ⟨h', -, e', -⟩ := hm
      exact ⟨h', e'⟩
  | ok r =>
      rw [hr] at hm
      obtain ⟨h', e', hf, -⟩ := hm
      exact ⟨h', e', valueAt_inv hf.commandAt⟩

/-- C74 for `replace_var`. -/
theorem C74_replace_var {cs : List Call} {s : Client} (hh : History newClient cs s) {a : Addr} (ha : a ∈ s.known)
    {c : CommandInvocationWithIOVars} (hc : valueAt s.heap a = some (.command c)) (v : Option IOVar) (w : IOVar) :
    match c.replaceVar v w with
    | .ok c' => ∃ h, replaceVar a v w s.heap = (.ok (), h) ∧ valueAt h a = some (.command c')
    | .error e => ∃ h, replaceVar a v w s.heap = (.error e, h) :=
  method_value hh ha hc fun m => replace_sim a m v w

/-- C74 for `remove_streaming_inputs`. -/
theorem C74_remove_inputs {cs : List Call} {s : Client} (hh : History newClient cs s) {a : Addr} (ha : a ∈ s.known)
    {c : CommandInvocationWithIOVars} (hc : valueAt s.heap a = some (.command c)) :
    match c.removeStreamingInputs with
    | .ok c' => ∃ h, removeStreamingInputs a s.heap = (.ok (), h) ∧ valueAt h a = some (.command c')
    | .error e => ∃ h, removeStreamingInputs a s.heap = (.error e, h) :=
  method_value hh ha hc fun m => remove_sim a m _

/-- C74 for `remove_streaming_outputs`. -/
theorem C74_remove_outputs {cs : List Call} {s : Client} (hh : History newClient cs s) {a : Addr} (ha : a ∈ s.known)
    {c : CommandInvocationWithIOVars} (hc : valueAt s.heap a = some (.command c)) :
    match c.removeStreamingOutputs with
    | .ok c' => ∃ h, removeStreamingOutputs a s.heap = (.ok (), h) ∧ valueAt h a = some (.command c')
    | .error e => ∃ h, removeStreamingOutputs a s.heap = (.error e, h) :=
  method_value hh ha hc fun m => remove_sim a m _

theorem collect_value {cs : List Call} {s : Client} (hh : History newClient cs s) {a : Addr} (ha : a ∈ s.known)
    {c : CommandInvocationWithIOVars} (hc : valueAt s.heap a = some (.command c)) (pred : AccessKind → Bool) :
    match (do let r ← PashAnn.flatMapAnythingNonNames (PashAnn.collectFun pred c.accessMap) [] c
              .ok (r.2, r.1) : Py (List IOVar × CommandInvocationWithIOVars)) with
    | .ok r => ∃ b h, collect a pred s.heap = (.ok b, h) ∧ b ∉ s.known ∧ valueAt h b = some (.list (r.1.map .var)) ∧
        valueAt h a = some (.command c)
    | .error e => ∃ h, collect a pred s.heap = (.error e, h) ∧ valueAt h a = some (.command c) := by
  have hg := history_good hh good_empty
  obtain ⟨hc, x, hx⟩ := valueAt_command hc
  have hm := collect_method pred (hg.full ha hx hc) (fun b hb => hg.lt hb)
  cases hr : PashAnn.flatMapAnythingNonNames (PashAnn.collectFun pred c.accessMap) [] c with
  | error e =>
      rw [hr] at hm
      obtain ⟨h', -, e', hf, -⟩ := hm
      exact ⟨h', e', valueAt_inv hf.commandAt⟩
  | ok r =>
      rw [hr] at hm
      obtain ⟨h', e', hf, hl, -⟩ := hm
      exact ⟨_, h', e', fun hmem => Nat.lt_irrefl _ (hg.lt hmem), by unfold valueAt; rw [hl], valueAt_inv hf.commandAt⟩

/-- C74 for `generate_inputs`: the result is a new list with the variables computed on values, and the invocation is as
before, also if the method raises. -/
theorem C74_generate_inputs {cs : List Call} {s : Client} (hh : History newClient cs s) {a : Addr} (ha : a ∈ s.known)
    {c : CommandInvocationWithIOVars} (hc : valueAt s.heap a = some (.command c)) :
    match c.generateInputs with
    | .ok r => ∃ b h, generateInputs a s.heap = (.ok b, h) ∧ b ∉ s.known ∧ valueAt h b = some (.list (r.1.map .var)) ∧
        valueAt h a = some (.command c)
    | .error e => ∃ h, generateInputs a s.heap = (.error e, h) ∧ valueAt h a = some (.command c) :=
  collect_value hh ha hc _

/-- C74 for `generate_outputs`. -/
theorem C74_generate_outputs {cs : List Call} {s : Client} (hh : History newClient cs s) {a : Addr} (ha : a ∈ s.known)
    {c : CommandInvocationWithIOVars} (hc : valueAt s.heap a = some (.command c)) :
    match c.generateOutputs with
    | .ok r => ∃ b h, generateOutputs a s.heap = (.ok b, h) ∧ b ∉ s.known ∧ valueAt h b = some (.list (r.1.map .var)) ∧
        valueAt h a = some (.command c)
    | .error e => ∃ h, generateOutputs a s.heap = (.error e, h) ∧ valueAt h a = some (.command c) :=
  collect_value hh ha hc _

/-- C74 for `has_other_outputs`. -/
theorem C74_has_other_outputs {cs : List Call} {s : Client} (hh : History newClient cs s) {a : Addr} (ha : a ∈ s.known)
    {c : CommandInvocationWithIOVars} (hc : valueAt s.heap a = some (.command c)) :
    match c.hasOtherOutputs with
    | .ok r => ∃ h, hasOtherOutputs a s.heap = (.ok r.1, h) ∧ valueAt h a = some (.command c)
    | .error e => ∃ h, hasOtherOutputs a s.heap = (.error e, h) ∧ valueAt h a = some (.command c) := by
  have hm := collect_value hh ha hc AccessKind.isOtherOutput
  unfold CommandInvocationWithIOVars.hasOtherOutputs hasOtherOutputs
  cases hr : PashAnn.flatMapAnythingNonNames (PashAnn.collectFun AccessKind.isOtherOutput c.accessMap) [] c with
  | error e =>
      rw [hr] at hm
      obtain ⟨h', e', hv⟩ := hm
      exact ⟨h', bind_error e', hv⟩
  | ok r =>
      rw [hr] at hm
      obtain ⟨b, h', e', -, hl, hv⟩ := hm
      refine ⟨h', ?_, hv⟩
      rw [bind_ok e', bind_ok (getVars_eq (valueAt_list hl))]
      simp only [List.length_map]
      rfl

/-- The example: `head` reads 5 and writes 6 afterwards, and the lists are empty. -/
example : ∃ h, substitute 6 7 8 exampleClient.heap = (.ok (), h) ∧
    valueAt h 6 = some (.command ⟨"head", [.flag "-q"], [.var 5], none, some 6, [(5, .streamInput), (6, .streamOutput)]⟩) ∧
    valueAt h 7 = some (.list []) ∧ valueAt h 8 = some (.list []) :=
  C74_substitute exampleHistory (a := 6) (i := 7) (o := 8) (is := [5]) (os := [6])
    (c := ⟨"head", [.flag "-q"], [.var 1], none, some 2, [(1, .streamInput), (2, .streamOutput)]⟩)
    (by simp [exampleClient_known]) (by simp [exampleClient_known]) (by simp [exampleClient_known]) (by decide)
    (by decide +kernel) (by decide +kernel) (by decide +kernel)

/-! ### C75: mappers, aggregators and new invocations share nothing with what the client has -/

theorem new_value {cs : List Call} {s : Client} (hh : History newClient cs s) {h : Heap} {b : Addr}
    {c : CommandInvocationWithIOVars} (hn : New s.heap h b c) : b ∉ s.known ∧ valueAt h b = some (.command c) := by
  have hg := history_good hh good_empty
  obtain ⟨hc, o, -, hb, -⟩ := hn
  exact ⟨fun hm => Nat.lt_irrefl _ (Nat.lt_of_lt_of_le (hg.lt hm) hb), valueAt_inv hc⟩

/-- C75 for the constructor: a new invocation with the contents of the lists and the dictionary. By `C73_independent` later
changes of these, or of the invocation, have no effect on the other. -/
theorem C75_construct {cs : List Call} {s : Client} (hh : History newClient cs s) {f o m : Addr}
    {fos : List FlagOptionWithIOVar} {ops : List VArg} {mm : AccessMap} (hf : valueAt s.heap f = some (.options fos))
    (ho : valueAt s.heap o = some (.list ops)) (hm : valueAt s.heap m = some (.dict mm)) (n : String) (i u : Option IOVar) :
    ∃ b h, construct n f o i u m s.heap = (.ok b, h) ∧ b ∉ s.known ∧
      valueAt h b = some (.command ⟨n, fos, ops, i, u, mm⟩) ∧
      (s.call (.construct n f o i u m)) = ⟨h, b :: s.known⟩ := by
  have hf' : s.heap[f]? = some (.options fos) := by
    unfold valueAt at hf
    split at hf
    · cases hf
    · rename_i x hx; cases hf; exact hx
    · cases hf
    · cases hc : commandAt s.heap f <;> rw [hc] at hf <;> cases hf
    · cases hf
  have hm' : s.heap[m]? = some (.map mm) := by
    unfold valueAt at hm
    split at hm
    · cases hm
    · cases hm
    · rename_i x hx; cases hm; exact hx
    · cases hc : commandAt s.heap m <;> rw [hc] at hm <;> cases hm
    · cases hm
  obtain ⟨h', e', hfull, hu', -⟩ := construct_full (n := n) (i := i) (u := u) hf' (valueAt_list ho) hm'
  have hv := new_value hh (hfull.new (fun a ha => by simpa using ha) (by omega) (by omega))
  refine ⟨_, h', e', hv.1, hv.2, ?_⟩
  unfold Client.call Call.run
  dsimp only
  rw [bind_ok e']
  rfl

/-- C75 for mappers: in any history the mapper is the one computed on values, and a new object. -/
theorem C75_mapper {cs : List Call} {s : Client} (hh : History newClient cs s) {a x : Addr} (ms : MapperSpec)
    {c : CommandInvocationWithIOVars} {aux : List IOVar} (hc : valueAt s.heap a = some (.command c))
    (hx : valueAt s.heap x = some (.list (aux.map .var))) (i o : IOVar) :
    match ms.getMapper c i o aux with
    | .ok (some c') => ∃ b h, getMapper ms a i o x s.heap = (.ok (some b), h) ∧ b ∉ s.known ∧ valueAt h b = some (.command c')
    | .ok none => ∃ h, getMapper ms a i o x s.heap = (.ok none, h)
    | .error e => ∃ h, getMapper ms a i o x s.heap = (.error e, h) := by
  obtain ⟨-, hr⟩ := getMapper_sim ms i o (valueAt_command hc).1 (valueAt_list hx)
  cases hm : getMapper ms a i o x s.heap with
  | mk r h =>
      rw [hm] at hr
      cases hp : ms.getMapper c i o aux with
      | error e => rw [hp] at hr; cases hr; exact ⟨h, rfl⟩
      | ok oc =>
          rw [hp] at hr
          cases oc with
          | none => cases hr; exact ⟨h, rfl⟩
          | some c' =>
              obtain ⟨b, e, hn⟩ := hr
              cases e
              exact ⟨b, h, rfl, new_value hh hn⟩

/-- C75 for aggregators. -/
theorem C75_aggregator {cs : List Call} {s : Client} (hh : History newClient cs s) {a x : Addr} (spec : AggregatorSpec)
    {c : CommandInvocationWithIOVars} {ins : List IOVar} (hc : valueAt s.heap a = some (.command c))
    (hx : valueAt s.heap x = some (.list (ins.map .var))) (o : IOVar) :
    match spec.getAggregator c ins o with
    | .ok (some g) => ∃ b h, getAggregator spec a x o s.heap = (.ok (some b), h) ∧ b ∉ s.known ∧
        valueAt h b = some (.command g.cmd)
    | .ok none => ∃ h, getAggregator spec a x o s.heap = (.ok none, h)
    | .error e => ∃ h, getAggregator spec a x o s.heap = (.error e, h) := by
  obtain ⟨-, hr⟩ := getAggregator_sim spec o (valueAt_command hc).1 (valueAt_list hx)
  cases hm : getAggregator spec a x o s.heap with
  | mk r h =>
      rw [hm] at hr
      cases hp : spec.getAggregator c ins o with
      | error e => rw [hp] at hr; cases hr; exact ⟨h, rfl⟩
      | ok oc =>
          rw [hp] at hr
          cases oc with
          | none => cases hr; exact ⟨h, rfl⟩
          | some c' =>
              obtain ⟨b, e, hn⟩ := hr
              cases e
              exact ⟨b, h, rfl, new_value hh hn⟩

/-- C75 for `make_cat_command_invocation_with_io_vars`. -/
theorem C75_cat {cs : List Call} {s : Client} (hh : History newClient cs s) {x : Addr} {ids : List IOVar}
    (hx : valueAt s.heap x = some (.list (ids.map .var))) (o : IOVar) :
    ∃ b h, makeCat x o s.heap = (.ok b, h) ∧ b ∉ s.known ∧
      valueAt h b = some (.command (CommandInvocationWithIOVars.makeCat ids o)) := by
  have := makeCat_sim o (valueAt_list hx)
  rw [onlyVars_map] at this
  obtain ⟨b, h, e, hn, -⟩ := this
  exact ⟨b, h, e, new_value hh hn⟩

/-- The example: the sequential mapper of `head -q 1 > 2` from 5 to 6. -/
example : ∃ b h, getMapper MapperSpec.makeSeq 6 5 6 9 (exampleClient.call (.newList [])).heap = (.ok (some b), h) ∧
    b ∉ (exampleClient.call (.newList [])).known ∧ valueAt h b = some (.command
      ⟨"head", [.flag "-q"], [.var 5], none, some 6, [(5, .streamInput), (6, .streamOutput)]⟩) :=
  C75_mapper (cs := exampleCalls ++ [.newList []]) (s := exampleClient.call (.newList []))
    (by
      have : ∀ {s t u : Client} {cs ds : List Call}, History s cs t → History t ds u → History s (cs ++ ds) u := by
        intro s t u cs ds h1 h2
        induction h1 with
        | done => exact h2
        | step a b _ ih => exact .step a b (ih h2)
      exact this exampleHistory (.step (by simp [Call.args]) trivial .done))
    MapperSpec.makeSeq (c := ⟨"head", [.flag "-q"], [.var 1], none, some 2, [(1, .streamInput), (2, .streamOutput)]⟩)
    (aux := []) (by decide +kernel) (by decide +kernel) 5 6

/-! ### C76: after an exception -/

/-- The full claim of C76: a call that raises changes nothing the client knows. -/
def RaisingChangesNothing : Prop :=
  ∀ (cs : List Call) (s : Client), History newClient cs s → ∀ c : Call, (∀ a ∈ c.args, a ∈ s.known) → c.Typed s.heap →
    ∀ e h, c.run s.heap = (.error e, h) → ∀ a ∈ s.known, valueAt h a = valueAt s.heap a

/-- C76 fails: substituting with too few outputs raises after the inputs have been renamed, and the list of inputs is
used up. -/
theorem C76_raising_changes_nothing_false : ¬ RaisingChangesNothing := by
  intro hall
  have h1 := hall (exampleCalls ++ [.changeList 8 []]) (exampleClient.call (.changeList 8 []))
    (by
      have : ∀ {s t u : Client} {cs ds : List Call}, History s cs t → History t ds u → History s (cs ++ ds) u := by
        intro s t u cs ds h1 h2
        induction h1 with
        | done => exact h2
        | step a b _ ih => exact .step a b (ih h2)
      exact this exampleHistory (.step (by simp [Call.args, exampleClient_known])
        ⟨[.var 6], by decide +kernel⟩ .done))
    (.substitute 6 7 8) (by decide +kernel)
    ⟨⟨⟨"head", 3, 4, none, some 2, 5⟩, by decide +kernel⟩, ⟨[.var 5], by decide +kernel⟩, [], by decide +kernel⟩
    .indexError ((Call.substitute 6 7 8).run (exampleClient.call (.changeList 8 [])).heap).2 (by decide +kernel) 7
    (by decide +kernel)
  revert h1
  decide +kernel

/-- Two occurrences of one input: the invocation of `paste 1 1`. -/
def pasteCalls : List Call :=
  [.newOptions [], .newList [.var 1, .var 1], .newDict [(1, .streamInput)], .construct "paste" 0 1 none none 2]

/-- C76, what can happen: after `replace_var` raised, an invocation can be left so that later methods raise.
Its dictionary no longer has the variable that its operands still name. -/
theorem C76_unusable_after_exception :
    ∃ s, History newClient pasteCalls s ∧ 6 ∈ s.known ∧
      (∃ h, replaceVar 6 (some 1) 9 s.heap = (.error .assertionError, h) ∧
        valueAt h 6 = some (.command ⟨"paste", [], [.var 1, .var 1], none, none, [(9, .streamInput)]⟩) ∧
        (generateInputs 6 h).1 = .error .keyError ∧ (removeStreamingInputs 6 h).1 = .error .keyError) := by
  refine ⟨runAll newClient pasteCalls, ?_, by decide +kernel,
    (replaceVar 6 (some 1) 9 (runAll newClient pasteCalls).heap).2, by decide +kernel, by decide +kernel, by decide +kernel,
    by decide +kernel⟩
  refine .step (by simp [Call.args]) trivial (.step (by simp [Call.args]) trivial (.step (by simp [Call.args]) trivial ?_))
  refine .step ?_ ?_ .done
  · decide +kernel
  · exact ⟨⟨[], by decide +kernel⟩, ⟨[.var 1, .var 1], by decide +kernel⟩, [(1, .streamInput)], by decide +kernel⟩

/-- C76, what holds: a call that raises changes no object other than those it announces. In particular the methods that
only inspect, the constructors and the functions making mappers and aggregators change nothing known at all, and after
any other call that raises only its receiver and its lists of new variables can differ.
Missing from the full claim: these can differ, see `C76_raising_changes_nothing_false`. -/
theorem C76_raising_partial {cs : List Call} {s : Client} (hh : History newClient cs s) (c : Call)
    (hargs : ∀ a ∈ c.args, a ∈ s.known) (hty : c.Typed s.heap) {e : PyErr} {h : Heap}
    (hr : c.run s.heap = (.error e, h)) {a : Addr} (ha : a ∈ s.known) (hn : a ∉ c.changes) :
    valueAt h a = valueAt s.heap a := by
  have := C73_only_announced_changes hh c hargs hty ha hn
  unfold Client.call at this
  rw [hr] at this
  exact this

end PashAnn
