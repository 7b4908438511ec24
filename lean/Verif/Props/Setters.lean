import Verif.Spec.Setters
import Verif.Lemmas.IOInfo

/-!
C88: a generator that an author writes types the operands as the names of the methods it calls say.
-/

namespace PashAnn

open Spec

/-- What a method does to operand `k`. -/
def effect (n k : Nat) (call : IOCall) : Option Typer := if saysStreamingInput call then none else says n k call

instance (n : Nat) (calls : List IOCall) : Decidable (saysStdin n calls) := by unfold saysStdin; infer_instance

/-- The effect of a single call. -/
structure CallEffect (n : Nat) (i i' : InputOutputInfo) (call : IOCall) : Prop where
  flags : i'.flagoptionListTyper = i.flagoptionListTyper
  length : i'.operandListTyper.length = n
  operands : ∀ k < n, i'.operandListTyper[k]? = match effect n k call with
    | some t => some t
    | none => i.operandListTyper[k]?
  input : i'.implicitInput = if saysStdin n [call] then some (.std .stdin .streamInput) else i.implicitInput
  output : i'.implicitOutput = if call = .setImplicitUseOfStdout true then some (.std .stdout .streamOutput)
    else i.implicitOutput

private theorem set_first {l : List Typer} {n : Nat} (hl : l.length = n + 1) (x : Typer) :
    ∃ l', setFirst l x = .ok l' ∧ l'.length = n + 1 ∧ ∀ k, l'[k]? = if k = 0 then some x else l[k]? := by
  cases l with
  | nil => simp at hl
  | cons a l =>
      refine ⟨x :: l, rfl, hl, fun k => ?_⟩
      cases k <;> simp

private theorem set_last {l : List Typer} {n : Nat} (hl : l.length = n + 1) (x : Typer) :
    ∃ l', setLast l x = .ok l' ∧ l'.length = n + 1 ∧ ∀ k < n + 1, l'[k]? = if k + 1 = n + 1 then some x else l[k]? := by
  rcases List.eq_nil_or_concat l with rfl | ⟨l, a, rfl⟩
  · simp at hl
  · have hn : l.length = n := by simpa using hl
    refine ⟨l ++ [x], ?_, by simp [hn], fun k hk => ?_⟩
    · unfold setLast
      split
      · rename_i h; simp at h
      · simp
    · by_cases hkn : k = n
      · subst hkn; simp [← hn]
      · have : k < l.length := by omega
        rw [if_neg (by omega)]
        simp only [List.concat_eq_append, List.getElem?_append_left this]


private theorem all_effect {i : InputOutputInfo} {call : IOCall} {t : Typer}
    (he : ∀ k, effect i.operandListTyper.length k call = some t)
    (hi : ¬ saysStdin i.operandListTyper.length [call]) (ho : call ≠ .setImplicitUseOfStdout true) :
    CallEffect i.operandListTyper.length i
      { i with operandListTyper := List.replicate i.operandListTyper.length t } call where
  flags := rfl
  length := by simp
  operands := by intro k hk; rw [he]; simp [hk]
  input := by rw [if_neg hi]
  output := by rw [if_neg ho]

private theorem same_effect {n : Nat} {i : InputOutputInfo} (hn : i.operandListTyper.length = n) {call : IOCall}
    (he : ∀ k, effect n k call = none) (hi : ¬ saysStdin n [call]) (ho : call ≠ .setImplicitUseOfStdout true) :
    CallEffect n i i call where
  flags := rfl
  length := hn
  operands := by intro k _; rw [he]
  input := by rw [if_neg hi]
  output := by rw [if_neg ho]

theorem call_effect (c : CommandInvocationInitial) (i : InputOutputInfo)
    (hn : i.operandListTyper.length = c.operandList.length) (call : IOCall) :
    (needsOperand call = true ∧ c.operandList.length = 0 ∧ call.exec c i = .error .indexError) ∨
    (¬ (needsOperand call = true ∧ c.operandList.length = 0) ∧
      ∃ i', call.exec c i = .ok i' ∧ CallEffect c.operandList.length i i' call) := by
  have hno : ∀ call', needsOperand call' = false → ¬ (needsOperand call' = true ∧ c.operandList.length = 0) := by
    intro call' h; simp [h]
  have first : ∀ {call'} {t : Typer}, needsOperand call' = true →
      call'.exec c i = (do let l ← setFirst i.operandListTyper t; .ok { i with operandListTyper := l }) →
      (∀ n k, effect n k call' = if k = 0 then some t else none) → (∀ n, ¬ saysStdin n [call']) →
      call' ≠ .setImplicitUseOfStdout true →
      (needsOperand call' = true ∧ c.operandList.length = 0 ∧ call'.exec c i = .error .indexError) ∨
      (¬ (needsOperand call' = true ∧ c.operandList.length = 0) ∧
        ∃ i', call'.exec c i = .ok i' ∧ CallEffect c.operandList.length i i' call') := by
    intro call' t h1 h2 h3 h4 h5
    rw [h2]
    cases hlen : c.operandList.length with
    | zero =>
        rw [hlen] at hn
        exact .inl ⟨h1, rfl, by rw [List.eq_nil_of_length_eq_zero hn]; rfl⟩
    | succ n =>
        rw [hlen] at hn
        obtain ⟨l', e, hl, hk⟩ := set_first hn t
        refine .inr ⟨by simp, { i with operandListTyper := l' }, by rw [e]; rfl, rfl, hl, ?_, by rw [if_neg (h4 _)], by rw [if_neg h5]⟩
        intro k _
        rw [h3, hk]
        by_cases h0 : k = 0
        · rw [if_pos h0, if_pos h0]
        · rw [if_neg h0, if_neg h0]
  have last : ∀ {call'} {t : Typer}, needsOperand call' = true →
      call'.exec c i = (do let l ← setLast i.operandListTyper t; .ok { i with operandListTyper := l }) →
      (∀ n k, effect n k call' = if k + 1 = n then some t else none) → (∀ n, ¬ saysStdin n [call']) →
      call' ≠ .setImplicitUseOfStdout true →
      (needsOperand call' = true ∧ c.operandList.length = 0 ∧ call'.exec c i = .error .indexError) ∨
      (¬ (needsOperand call' = true ∧ c.operandList.length = 0) ∧
        ∃ i', call'.exec c i = .ok i' ∧ CallEffect c.operandList.length i i' call') := by
    intro call' t h1 h2 h3 h4 h5
    rw [h2]
    cases hlen : c.operandList.length with
    | zero =>
        rw [hlen] at hn
        exact .inl ⟨h1, rfl, by rw [List.eq_nil_of_length_eq_zero hn]; rfl⟩
    | succ n =>
        rw [hlen] at hn
        obtain ⟨l', e, hl, hk⟩ := set_last hn t
        refine .inr ⟨by simp, { i with operandListTyper := l' }, by rw [e]; rfl, rfl, hl, ?_, by rw [if_neg (h4 _)], by rw [if_neg h5]⟩
        intro k hkn
        rw [h3, hk k hkn]
        by_cases h0 : k + 1 = n + 1
        · rw [if_pos h0, if_pos h0]
        · rw [if_neg h0, if_neg h0]
  have butFirst : ∀ {call'} {t : Typer}, needsOperand call' = true →
      call'.exec c i = (do
        let x ← getFirst i.operandListTyper
        let l ← setFirst (List.replicate i.operandListTyper.length t) x
        .ok { i with operandListTyper := l }) →
      (∀ n k, effect n k call' = if k = 0 then none else some t) → (∀ n, ¬ saysStdin n [call']) →
      call' ≠ .setImplicitUseOfStdout true →
      (needsOperand call' = true ∧ c.operandList.length = 0 ∧ call'.exec c i = .error .indexError) ∨
      (¬ (needsOperand call' = true ∧ c.operandList.length = 0) ∧
        ∃ i', call'.exec c i = .ok i' ∧ CallEffect c.operandList.length i i' call') := by
    intro call' t h1 h2 h3 h4 h5
    rw [h2]
    cases hlen : c.operandList.length with
    | zero =>
        rw [hlen] at hn
        exact .inl ⟨h1, rfl, by rw [List.eq_nil_of_length_eq_zero hn]; rfl⟩
    | succ n =>
        rw [hlen] at hn
        cases hl0 : i.operandListTyper with
        | nil => rw [hl0] at hn; simp at hn
        | cons a tl =>
            rw [hl0] at hn
            obtain ⟨l', e, hl, hk⟩ := set_first (l := List.replicate (a :: tl).length t) (n := n) (by simp [hn]) a
            refine .inr ⟨by simp, { i with operandListTyper := l' }, ?_, rfl, hl, ?_, by rw [if_neg (h4 _)], by rw [if_neg h5]⟩
            · simp only [getFirst, bind, Except.bind, e]
            · intro k hkn
              rw [h3, hk, hl0]
              by_cases h0 : k = 0
              · simp [h0]
              · simp only [h0, if_false]; rw [List.getElem?_replicate, if_pos (by omega)]
  have butLast : ∀ {call'} {t : Typer}, needsOperand call' = true →
      call'.exec c i = (do
        let x ← getLast i.operandListTyper
        let l ← setLast (List.replicate i.operandListTyper.length t) x
        .ok { i with operandListTyper := l }) →
      (∀ n k, effect n k call' = if k + 1 = n then none else some t) → (∀ n, ¬ saysStdin n [call']) →
      call' ≠ .setImplicitUseOfStdout true →
      (needsOperand call' = true ∧ c.operandList.length = 0 ∧ call'.exec c i = .error .indexError) ∨
      (¬ (needsOperand call' = true ∧ c.operandList.length = 0) ∧
        ∃ i', call'.exec c i = .ok i' ∧ CallEffect c.operandList.length i i' call') := by
    intro call' t h1 h2 h3 h4 h5
    rw [h2]
    cases hlen : c.operandList.length with
    | zero =>
        rw [hlen] at hn
        exact .inl ⟨h1, rfl, by rw [List.eq_nil_of_length_eq_zero hn]; rfl⟩
    | succ n =>
        rw [hlen] at hn
        cases hg : i.operandListTyper.getLast? with
        | none => rw [List.getLast?_eq_none_iff] at hg; rw [hg] at hn; simp at hn
        | some a =>
            obtain ⟨l', e, hl, hk⟩ := set_last (l := List.replicate i.operandListTyper.length t) (n := n) (by simp [hn]) a
            refine .inr ⟨by simp, { i with operandListTyper := l' }, ?_, rfl, hl, ?_, by rw [if_neg (h4 _)], by rw [if_neg h5]⟩
            · simp only [getLast, hg, bind, Except.bind, e]
            · intro k hkn
              rw [h3, hk k hkn]
              by_cases h0 : k + 1 = n + 1
              · simp only [h0, if_true]
                rw [List.getLast?_eq_getElem?, hn] at hg
                have : k = n := by omega
                rw [this, ← hg]; rfl
              · simp only [h0, if_false]; rw [List.getElem?_replicate, if_pos (by omega)]
  cases call with
  | setImplicitUseOfStdin v =>
      refine .inr ⟨hno _ rfl, _, rfl, ?_⟩
      cases v
      · exact same_effect hn (fun _ => rfl) (by simp [saysStdin]) (by simp)
      · exact ⟨rfl, hn, fun _ _ => rfl, by rw [if_pos (by simp [saysStdin])]; rfl, by rw [if_neg (by simp)]; rfl⟩
  | setImplicitUseOfStdout v =>
      refine .inr ⟨hno _ rfl, _, rfl, ?_⟩
      cases v
      · exact same_effect hn (fun _ => rfl) (by simp [saysStdin]) (by simp)
      · exact ⟨rfl, hn, fun _ _ => rfl, by rw [if_neg (by simp [saysStdin])]; rfl, by rw [if_pos rfl]; rfl⟩
  | ifNoOperandsGivenStdinImplicitlyUsed =>
      refine .inr ⟨hno _ rfl, _, rfl, ?_⟩
      unfold ifNoOperandsGivenStdinImplicitlyUsed
      by_cases h0 : c.operandList.length = 0
      · rw [if_pos h0]
        exact ⟨rfl, hn, fun _ _ => rfl, by rw [if_pos (by simp only [saysStdin]; exact .inr ⟨by simp, h0⟩)]; rfl, by rw [if_neg (by simp)]; rfl⟩
      · rw [if_neg h0]
        refine same_effect hn (fun _ => rfl) ?_ (by simp)
        rintro (h | h)
        · simp at h
        · exact h0 h.2
  | allOperandsAreStreamingInputs =>
      exact .inr ⟨hno _ rfl, _, rfl, same_effect hn (fun _ => rfl) (by simp [saysStdin]) (by simp)⟩
  | allButLastOperandIsStreamingInput =>
      exact .inr ⟨hno _ rfl, _, rfl, same_effect hn (fun _ => rfl) (by simp [saysStdin]) (by simp)⟩
  | allButFirstOperandIsStreamingInput =>
      exact .inr ⟨hno _ rfl, _, rfl, same_effect hn (fun _ => rfl) (by simp [saysStdin]) (by simp)⟩
  | allOperandsAreStreamingOutputs =>
      exact .inr ⟨hno _ rfl, _, rfl, hn ▸ all_effect (fun _ => rfl) (by simp [saysStdin]) (by simp)⟩
  | allOperandsAreOtherInputs =>
      exact .inr ⟨hno _ rfl, _, rfl, hn ▸ all_effect (fun _ => rfl) (by simp [saysStdin]) (by simp)⟩
  | allOperandsAreOtherOutputs =>
      exact .inr ⟨hno _ rfl, _, rfl, hn ▸ all_effect (fun _ => rfl) (by simp [saysStdin]) (by simp)⟩
  | setAllOperandsAsConfigArgTypeString =>
      exact .inr ⟨hno _ rfl, _, rfl, hn ▸ all_effect (fun _ => rfl) (by simp [saysStdin]) (by simp)⟩
  | setAllOperandsAsArgString =>
      exact .inr ⟨hno _ rfl, _, rfl, hn ▸ all_effect (fun _ => rfl) (by simp [saysStdin]) (by simp)⟩
  | allButLastOperandIsOtherInput => exact butLast rfl rfl (fun _ _ => rfl) (by simp [saysStdin]) (by simp)
  | allButFirstOperandIsStreamingOutput => exact butFirst rfl rfl (fun _ _ => rfl) (by simp [saysStdin]) (by simp)
  | allButFirstOperandIsOtherInput => exact butFirst rfl rfl (fun _ _ => rfl) (by simp [saysStdin]) (by simp)
  | onlyLastOperandIsStreamOutput => exact last rfl rfl (fun _ _ => rfl) (by simp [saysStdin]) (by simp)
  | onlyLastOperandIsOtherOutput => exact last rfl rfl (fun _ _ => rfl) (by simp [saysStdin]) (by simp)
  | setFirstOperandAsConfigArgTypeString => exact first rfl rfl (fun _ _ => rfl) (by simp [saysStdin]) (by simp)
  | setFirstOperandAsConfigArgTypeFilenameOrStdDescriptor =>
      exact first rfl rfl (fun _ _ => rfl) (by simp [saysStdin]) (by simp)


private theorem saysStdin_cons (n : Nat) (call : IOCall) (calls : List IOCall) :
    saysStdin n (call :: calls) ↔ saysStdin n [call] ∨ saysStdin n calls := by
  unfold saysStdin
  simp only [List.mem_cons, List.not_mem_nil, or_false]
  constructor
  · rintro ((h | h) | ⟨h | h, h0⟩)
    · exact .inl (.inl h)
    · exact .inr (.inl h)
    · exact .inl (.inr ⟨h, h0⟩)
    · exact .inr (.inr ⟨h, h0⟩)
  · rintro ((h | ⟨h, h0⟩) | (h | ⟨h, h0⟩))
    · exact .inl (.inl h)
    · exact .inr ⟨.inl h, h0⟩
    · exact .inl (.inr h)
    · exact .inr ⟨.inr h, h0⟩

/-- The effect of a history. -/
theorem calls_effect (c : CommandInvocationInitial) (calls : List IOCall) (i : InputOutputInfo)
    (hn : i.operandListTyper.length = c.operandList.length) :
    ((∃ call ∈ calls, needsOperand call = true) ∧ c.operandList.length = 0 ∧
      IOCall.execAll c i calls = .error .indexError) ∨
    (¬ ((∃ call ∈ calls, needsOperand call = true) ∧ c.operandList.length = 0) ∧
      ∃ i', IOCall.execAll c i calls = .ok i' ∧ i'.flagoptionListTyper = i.flagoptionListTyper ∧
        i'.operandListTyper.length = c.operandList.length ∧
        (∀ k < c.operandList.length, i'.operandListTyper[k]? =
          match (calls.filterMap (effect c.operandList.length k)).getLast? with
          | some t => some t
          | none => i.operandListTyper[k]?) ∧
        (i'.implicitInput = if saysStdin c.operandList.length calls then some (.std .stdin .streamInput)
          else i.implicitInput) ∧
        (i'.implicitOutput = if .setImplicitUseOfStdout true ∈ calls then some (.std .stdout .streamOutput)
          else i.implicitOutput)) := by
  induction calls generalizing i with
  | nil => exact .inr ⟨by simp, i, rfl, rfl, hn, fun _ _ => rfl, by simp [saysStdin], by simp⟩
  | cons call calls ih =>
      rcases call_effect c i hn call with ⟨h1, h2, h3⟩ | ⟨h0, i1, h1, he⟩
      · exact .inl ⟨⟨call, by simp, h1⟩, h2, by simp [IOCall.execAll, h3, bind, Except.bind]⟩
      · rcases ih i1 he.length with ⟨⟨call', hm, h3⟩, h4, h5⟩ | ⟨h3, i', h4, h5, h6, h7, h8, h9⟩
        · exact .inl ⟨⟨call', by simp [hm], h3⟩, h4, by simp [IOCall.execAll, h1, bind, Except.bind, h5]⟩
        · refine .inr ⟨?_, i', by simp [IOCall.execAll, h1, bind, Except.bind, h4], h5.trans he.flags, h6, ?_, ?_, ?_⟩
          · rintro ⟨⟨call', hm, hc⟩, hz⟩
            rcases List.mem_cons.1 hm with rfl | hm
            · exact h0 ⟨hc, hz⟩
            · exact h3 ⟨⟨call', hm, hc⟩, hz⟩
          · intro k hk
            rw [h7 k hk, he.operands k hk, List.filterMap_cons]
            cases hce : effect c.operandList.length k call with
            | none => rfl
            | some t =>
                simp only [List.getLast?_cons]
                cases (calls.filterMap (effect c.operandList.length k)).getLast? <;> rfl
          · rw [h8, he.input]
            by_cases ha : saysStdin c.operandList.length calls
            · rw [if_pos ha, if_pos ((saysStdin_cons _ _ _).2 (.inr ha))]
            · rw [if_neg ha]
              by_cases hb : saysStdin c.operandList.length [call]
              · rw [if_pos hb, if_pos ((saysStdin_cons _ _ _).2 (.inl hb))]
              · rw [if_neg hb, if_neg (fun h => ((saysStdin_cons _ _ _).1 h).elim hb ha)]
          · rw [h9, he.output]
            by_cases ha : IOCall.setImplicitUseOfStdout true ∈ calls
            · rw [if_pos ha, if_pos (by simp [ha])]
            · rw [if_neg ha]
              by_cases hb : call = .setImplicitUseOfStdout true
              · rw [if_pos hb, if_pos (by simp [hb])]
              · rw [if_neg hb, if_neg (by simp [ha, Ne.symm hb])]


private theorem saidLast_snoc (n k : Nat) (calls : List IOCall) (call : IOCall) :
    saidLast n k (calls ++ [call]) = (says n k call).getD (saidLast n k calls) := by
  unfold saidLast
  rw [List.filterMap_append, List.getLast?_append]
  cases h : says n k call <;> simp [h]

private theorem orderly_effect {n : Nat} {calls : List IOCall} (h : Orderly n calls) {k : Nat} (hk : k < n) :
    ((calls.filterMap (effect n k)).getLast?).getD (.fileStd .streamInput) = saidLast n k calls := by
  induction hlen : calls.length generalizing calls with
  | zero => rw [List.eq_nil_of_length_eq_zero hlen]; rfl
  | succ m ih =>
      rcases List.eq_nil_or_concat calls with rfl | ⟨calls, call, rfl⟩
      · simp at hlen
      · rw [List.concat_eq_append] at h hlen ⊢
        have hpre : Orderly n calls := by
          intro before call' after e
          exact h before call' (after ++ [call]) (by rw [e]; simp)
        have hi := ih hpre (by simpa using hlen)
        rw [saidLast_snoc, ← hi, List.filterMap_append, List.getLast?_append]
        cases hs : saysStreamingInput call with
        | false =>
            have : effect n k call = says n k call := by unfold effect; rw [hs]; rfl
            cases h' : says n k call <;> simp [this, h']
        | true =>
            have he : effect n k call = none := by unfold effect; rw [hs]; rfl
            cases h' : says n k call with
            | none => simp [he]
            | some t =>
                have ht : t = .fileStd .streamInput := by
                  cases call <;> simp [saysStreamingInput] at hs <;> simp only [says] at h' <;> (try split at h') <;>
                    simp_all
                have := h calls call [] rfl hs k hk (by rw [h']; rfl)
                rw [← hi] at this
                simp only [List.filterMap_cons, he, List.filterMap_nil, List.getLast?_nil, Option.none_or, this, ht,
                  Option.getD_some]

private theorem getLast_getD {o : Option Typer} {n k : Nat} (hk : k < n) :
    (match o with
      | some t => some t
      | none => (List.replicate n (Typer.fileStd .streamInput))[k]?) = some (o.getD (.fileStd .streamInput)) := by
  cases o with
  | some t => rfl
  | none => simp [hk]

private theorem effect_ordinary {n k : Nat} {call : IOCall} {t : Typer} (h : effect n k call = some t) :
    t ≠ .plainString := by
  rintro rfl
  unfold effect at h
  cases call <;> simp [saysStreamingInput, says] at h

private theorem effect_filter (n k : Nat) (calls : List IOCall) : calls.filterMap (effect n k) =
    (calls.filter (fun call => !saysStreamingInput call)).filterMap (says n k) := by
  induction calls with
  | nil => rfl
  | cons call calls ih =>
      rw [List.filterMap_cons, List.filter_cons]
      cases hs : saysStreamingInput call with
      | true => simp only [effect, hs, if_true]; exact ih
      | false =>
          simp only [effect, hs, Bool.not_false, if_true, Bool.false_eq_true, if_false, List.filterMap_cons]
          cases says n k call with
          | none => exact ih
          | some x => exact congrArg _ ih

/-- Everything about a history, without hypotheses on the order of the calls. -/
theorem generateWith_effect (c : CommandInvocationInitial) (i : InputOutputInfo) (hi : initialInfo c = .ok i)
    (calls : List IOCall) :
    ((∃ call ∈ calls, needsOperand call = true) ∧ c.operandList = [] ∧ generateWith c calls = .error .indexError) ∨
    (¬ ((∃ call ∈ calls, needsOperand call = true) ∧ c.operandList = []) ∧
      ∃ t, generateWith c calls = .ok t ∧ t.cmdName = c.cmdName ∧
        t.flagOptionList = List.zipWith typedFlagOption c.flagOptionList i.flagoptionListTyper ∧
        t.operandList.length = c.operandList.length ∧
        (∀ k s, c.operandList[k]? = some s → t.operandList[k]? = some (typedArg
          (((calls.filterMap (effect c.operandList.length k)).getLast?).getD (.fileStd .streamInput)) s)) ∧
        (t.implicitInput = if saysStdin c.operandList.length calls then some (.std .stdin .streamInput) else none) ∧
        (t.implicitOutput = if .setImplicitUseOfStdout true ∈ calls then some (.std .stdout .streamOutput) else none)) := by
  obtain ⟨ts, hts, e⟩ := bind_ok hi
  cases e
  have hn : (InputOutputInfo.init ts c.operandList.length).operandListTyper.length = c.operandList.length := by
    simp [InputOutputInfo.init]
  rcases calls_effect c calls _ hn with ⟨h1, h2, h3⟩ | ⟨h0, i', h1, h2, h3, h4, h5, h6⟩
  · refine .inl ⟨h1, List.eq_nil_of_length_eq_zero h2, ?_⟩
    simp only [generateWith, hi, bind, Except.bind, h3]
  · have hget : ∀ k < c.operandList.length, i'.operandListTyper[k]? =
        some (((calls.filterMap (effect c.operandList.length k)).getLast?).getD (.fileStd .streamInput)) := by
      intro k hk
      rw [h4 k hk]
      exact getLast_getD hk
    have hplain : Typer.plainString ∉ i'.operandListTyper := by
      intro hm
      obtain ⟨k, hk⟩ := List.mem_iff_getElem?.1 hm
      have hlt : k < c.operandList.length := by
        rw [← h3]; exact (List.getElem?_eq_some_iff.1 hk).1
      rw [hget k hlt] at hk
      cases hl : (calls.filterMap (effect c.operandList.length k)).getLast? with
      | none => rw [hl] at hk; simp at hk
      | some t =>
          rw [hl] at hk
          obtain ⟨call, _, he⟩ := List.mem_filterMap.1 (List.mem_of_getLast? hl)
          exact effect_ordinary he (by simpa using hk)
    have happ := apply_eq i' c (by rw [h2]; exact typers_optionsTyped hts) hplain
    have hgen : generateWith c calls = .ok ⟨c.cmdName,
        List.zipWith typedFlagOption c.flagOptionList i'.flagoptionListTyper,
        List.zipWith (fun s t => typedArg t s) c.operandList i'.operandListTyper, i'.implicitInput,
        i'.implicitOutput⟩ := by
      simp only [generateWith, hi, bind, Except.bind, h1]; exact happ
    refine .inr ⟨by rw [← List.length_eq_zero_iff]; exact h0, _, hgen, rfl, ?_, ?_, ?_, ?_, ?_⟩
    · show List.zipWith _ _ i'.flagoptionListTyper = _
      rw [h2]
    · show (List.zipWith _ _ _).length = _
      simp [h3]
    · intro k s hs
      have hlt : k < c.operandList.length := (List.getElem?_eq_some_iff.1 hs).1
      show (List.zipWith _ _ _)[k]? = _
      rw [List.getElem?_zipWith, hs, hget k hlt]
    · exact h5
    · exact h6

/-- C88. A generator made of calls of the methods for authors types each operand as the last call that says anything
about it says, and as a streaming input if no call does. Missing: calls that say of an operand that it is a streaming
input after another call has said something else (false, below). -/
theorem C88_operands_partial (c : CommandInvocationInitial) (i : InputOutputInfo) (hi : initialInfo c = .ok i)
    (calls : List IOCall) (ho : Orderly c.operandList.length calls)
    (hne : (∃ call ∈ calls, needsOperand call = true) → c.operandList ≠ []) :
    ∃ t, generateWith c calls = .ok t ∧ t.operandList.length = c.operandList.length ∧
      ∀ k s, c.operandList[k]? = some s →
        t.operandList[k]? = some (typedArg (saidLast c.operandList.length k calls) s) := by
  rcases generateWith_effect c i hi calls with ⟨h1, h2, _⟩ | ⟨_, t, h1, _, _, h2, h3, _⟩
  · exact absurd h2 (hne h1)
  · refine ⟨t, h1, h2, fun k s hs => ?_⟩
    rw [h3 k s hs, orderly_effect ho (List.getElem?_eq_some_iff.1 hs).1]

/-- C88, exactly and for all histories: the calls that say that operands are streaming inputs do nothing. -/
theorem C88_operands_exact (c : CommandInvocationInitial) (i : InputOutputInfo) (hi : initialInfo c = .ok i)
    (calls : List IOCall) (t : CommandInvocationWithIO) (h : generateWith c calls = .ok t) :
    t.operandList.length = c.operandList.length ∧ ∀ k s, c.operandList[k]? = some s →
      t.operandList[k]? = some (typedArg
        (saidLast c.operandList.length k (calls.filter (fun call => !saysStreamingInput call))) s) := by
  rcases generateWith_effect c i hi calls with ⟨_, _, h2⟩ | ⟨_, t', h1, _, _, h2, h3, _⟩
  · rw [h] at h2; cases h2
  · rw [h] at h1; cases h1
    refine ⟨h2, fun k s hs => ?_⟩
    rw [h3 k s hs]
    unfold saidLast
    rw [effect_filter]

/-- C88 is false of the code for the methods about streaming inputs: operands that have been said to be outputs stay
outputs, for every invocation with operands. -/
theorem C88_streaming_inputs_false (c : CommandInvocationInitial) (i : InputOutputInfo) (hi : initialInfo c = .ok i)
    (call : IOCall) (hc : saysStreamingInput call = true) (t : CommandInvocationWithIO)
    (h : generateWith c [.allOperandsAreStreamingOutputs, call] = .ok t) (k : Nat) (s : String)
    (hs : c.operandList[k]? = some s) : t.operandList[k]? = some (typedArg (.fileStd .streamOutput) s) := by
  rw [(C88_operands_exact c i hi _ t h).2 k s hs]
  have e : [IOCall.allOperandsAreStreamingOutputs, call].filter (fun call => !saysStreamingInput call) =
      [.allOperandsAreStreamingOutputs] := by
    cases call <;> simp [saysStreamingInput] at hc <;> rfl
  rw [e]; rfl

/-- C88: the only exception is an `IndexError`, raised exactly if there are no operands and a method is called that
takes one for granted. -/
theorem C88_raises (c : CommandInvocationInitial) (i : InputOutputInfo) (hi : initialInfo c = .ok i)
    (calls : List IOCall) (e : PyErr) : generateWith c calls = .error e ↔
      e = .indexError ∧ c.operandList = [] ∧ ∃ call ∈ calls, needsOperand call = true := by
  rcases generateWith_effect c i hi calls with ⟨h1, h2, h3⟩ | ⟨h0, t, h1, _⟩
  · rw [h3]
    constructor
    · intro h; cases h; exact ⟨rfl, h2, h1⟩
    · rintro ⟨rfl, _⟩; rfl
  · rw [h1]
    constructor
    · intro h; cases h
    · rintro ⟨_, h2, h3⟩; exact absurd ⟨h3, h2⟩ h0

/-- C88: the standard streams are used exactly if a call says so. A call with `False` takes nothing back. -/
theorem C88_streams (c : CommandInvocationInitial) (i : InputOutputInfo) (hi : initialInfo c = .ok i)
    (calls : List IOCall) (t : CommandInvocationWithIO) (h : generateWith c calls = .ok t) :
    (t.implicitInput = some (.std .stdin .streamInput) ↔ saysStdin c.operandList.length calls) ∧
    (¬ saysStdin c.operandList.length calls → t.implicitInput = none) ∧
    (t.implicitOutput = some (.std .stdout .streamOutput) ↔ .setImplicitUseOfStdout true ∈ calls) ∧
    (.setImplicitUseOfStdout true ∉ calls → t.implicitOutput = none) := by
  rcases generateWith_effect c i hi calls with ⟨_, _, h2⟩ | ⟨_, t', h1, _, _, _, _, h5, h6⟩
  · rw [h] at h2; cases h2
  · rw [h] at h1; cases h1
    rw [h5, h6]
    refine ⟨?_, ?_, ?_, ?_⟩
    · by_cases hx : saysStdin c.operandList.length calls <;> simp [hx]
    · intro hx; rw [if_neg hx]
    · by_cases hx : IOCall.setImplicitUseOfStdout true ∈ calls <;> simp [hx]
    · intro hx; rw [if_neg hx]

/-- C88 is false of the code for retracting: after a call with `True`, calls with `False` do nothing. -/
theorem C88_retract_false (c : CommandInvocationInitial) (i : InputOutputInfo) (hi : initialInfo c = .ok i) :
    ∃ t, generateWith c [.setImplicitUseOfStdin true, .setImplicitUseOfStdin false] = .ok t ∧
      t.implicitInput = some (.std .stdin .streamInput) := by
  rcases generateWith_effect c i hi [.setImplicitUseOfStdin true, .setImplicitUseOfStdin false] with
    ⟨⟨call, hm, hc⟩, _⟩ | ⟨_, t, h1, _⟩
  · simp only [List.mem_cons, List.not_mem_nil, or_false] at hm
    rcases hm with rfl | rfl <;> simp [needsOperand] at hc
  · exact ⟨t, h1, (C88_streams c i hi _ t h1).1.2 (.inl (by simp))⟩

/-- The condition on the order, checked from left to right. -/
def OrderlyFrom (n : Nat) (before : List IOCall) : List IOCall → Prop
  | [] => True
  | call :: rest => (saysStreamingInput call = true → ∀ k < n, (says n k call).isSome →
      saidLast n k before = .fileStd .streamInput) ∧ OrderlyFrom n (before ++ [call]) rest

theorem orderly_from {n : Nat} {calls : List IOCall} (h : OrderlyFrom n [] calls) : Orderly n calls := by
  suffices ∀ (rest pre : List IOCall), OrderlyFrom n pre rest → ∀ before call after, pre ++ rest = before ++ call :: after →
      pre.length ≤ before.length → saysStreamingInput call = true →
      ∀ k < n, (says n k call).isSome → saidLast n k before = .fileStd .streamInput from
    fun before call after e => this calls [] h before call after e (Nat.zero_le _)
  intro rest
  induction rest with
  | nil =>
      intro pre _ before call after e hl
      have := congrArg List.length e
      simp at this; omega
  | cons x rest ih =>
      intro pre hp before call after e hl
      by_cases heq : pre.length = before.length
      · have := List.append_inj e heq
        obtain ⟨rfl, he⟩ := this
        cases he
        exact hp.1
      · exact ih (pre ++ [x]) hp.2 before call after (by rw [← e]; simp) (by simp; omega)

set_option linter.unusedSimpArgs false in
/-- C88 for the generators in the repository: each of them does what some orderly sequence of calls does, so that its
operands are typed as the names of these methods say. -/
theorem C88_shipped (name : String) (gen : IOGenerator) (hg : (name, gen) ∈ ioGeneratorClasses)
    (c : CommandInvocationInitial) (i i' : InputOutputInfo) (h : gen c i = .ok i') :
    ∃ calls, Orderly c.operandList.length calls ∧ IOCall.execAll c i calls = .ok i' := by
  simp only [ioGeneratorClasses, List.mem_cons, List.not_mem_nil, or_false, Prod.mk.injEq] at hg
  rcases hg with ⟨_, rfl⟩ | ⟨_, rfl⟩ | ⟨_, rfl⟩ | ⟨_, rfl⟩ | ⟨_, rfl⟩ | ⟨_, rfl⟩ | ⟨_, rfl⟩ | ⟨_, rfl⟩ | ⟨_, rfl⟩ |
    ⟨_, rfl⟩ | ⟨_, rfl⟩ | ⟨_, rfl⟩ | ⟨_, rfl⟩ | ⟨_, rfl⟩ | ⟨_, rfl⟩ | ⟨_, rfl⟩ | ⟨_, rfl⟩ | ⟨_, rfl⟩ | ⟨_, rfl⟩ |
    ⟨_, rfl⟩ | ⟨_, rfl⟩ | ⟨_, rfl⟩ | ⟨_, rfl⟩ | ⟨_, rfl⟩ | ⟨_, rfl⟩ | ⟨_, rfl⟩ | ⟨_, rfl⟩ | ⟨_, rfl⟩
  · exact ⟨[.setImplicitUseOfStdin true, .setImplicitUseOfStdout true],
      orderly_from (by simp +contextual [OrderlyFrom, saysStreamingInput, saidLast, says, List.findSome?]), h⟩
  · exact ⟨[.allOperandsAreStreamingInputs, .setImplicitUseOfStdout true],
      orderly_from (by simp +contextual [OrderlyFrom, saysStreamingInput, saidLast, says, List.findSome?]), h⟩
  · unfold IOGen.awk at h
    dsimp only at h
    split at h
    · split at h
      · exact ⟨[.setImplicitUseOfStdout true, .setImplicitUseOfStdin true],
          orderly_from (by simp +contextual [OrderlyFrom, saysStreamingInput, saidLast, says, List.findSome?]), h⟩
      · exact ⟨[.setImplicitUseOfStdout true, .allOperandsAreStreamingInputs],
          orderly_from (by simp +contextual [OrderlyFrom, saysStreamingInput, saidLast, says, List.findSome?]), h⟩
    · obtain ⟨i1, h1, h⟩ := bind_ok h
      have h1 : IOCall.exec c i.setImplicitUseOfStdout .setFirstOperandAsConfigArgTypeString = .ok i1 := h1
      split at h
      · exact ⟨[.setImplicitUseOfStdout true, .setFirstOperandAsConfigArgTypeString, .setImplicitUseOfStdin true],
          orderly_from (by simp +contextual [OrderlyFrom, saysStreamingInput, saidLast, says, List.findSome?]), by
          show (IOCall.exec c i.setImplicitUseOfStdout .setFirstOperandAsConfigArgTypeString >>= fun i => IOCall.execAll c i [.setImplicitUseOfStdin true]) = _
          rw [h1]; exact h⟩
      · exact ⟨[.setImplicitUseOfStdout true, .setFirstOperandAsConfigArgTypeString, .allButFirstOperandIsStreamingInput],
          orderly_from (by simp +contextual [OrderlyFrom, saysStreamingInput, saidLast, says, List.findSome?]), by
          show (IOCall.exec c i.setImplicitUseOfStdout .setFirstOperandAsConfigArgTypeString >>= fun i => IOCall.execAll c i [.allButFirstOperandIsStreamingInput]) = _
          rw [h1]; exact h⟩
  · exact ⟨[.setImplicitUseOfStdin true, .setImplicitUseOfStdout true],
      orderly_from (by simp +contextual [OrderlyFrom, saysStreamingInput, saidLast, says, List.findSome?]), h⟩
  · exact ⟨[.setImplicitUseOfStdout true, .ifNoOperandsGivenStdinImplicitlyUsed, .allOperandsAreStreamingInputs],
      orderly_from (by simp +contextual [OrderlyFrom, saysStreamingInput, saidLast, says, List.findSome?]), h⟩
  · exact ⟨[.setImplicitUseOfStdin true, .setImplicitUseOfStdout true],
      orderly_from (by simp +contextual [OrderlyFrom, saysStreamingInput, saidLast, says, List.findSome?]), h⟩
  · obtain ⟨_, _, h⟩ := bind_ok h
    exact ⟨[.setImplicitUseOfStdout true, .allOperandsAreStreamingInputs],
        orderly_from (by simp +contextual [OrderlyFrom, saysStreamingInput, saidLast, says, List.findSome?]), h⟩
  · unfold IOGen.customSort at h
    by_cases h1 : containsAtLeastOneOf c ["-o"] = true <;>
      by_cases h2 : (decide (operandListLength c = 0) && !containsAtLeastOneOf c ["--files0-from"]) = true <;>
      simp only [h1, h2, Bool.not_true, Bool.not_false, Bool.false_eq_true, if_true, if_false] at h
    · exact ⟨[.setImplicitUseOfStdin true],
        orderly_from (by simp +contextual [OrderlyFrom, saysStreamingInput, saidLast, says, List.findSome?]), h⟩
    · exact ⟨[.allOperandsAreStreamingInputs],
        orderly_from (by simp +contextual [OrderlyFrom, saysStreamingInput, saidLast, says, List.findSome?]), h⟩
    · exact ⟨[.setImplicitUseOfStdout true, .setImplicitUseOfStdin true],
        orderly_from (by simp +contextual [OrderlyFrom, saysStreamingInput, saidLast, says, List.findSome?]), h⟩
    · exact ⟨[.setImplicitUseOfStdout true, .allOperandsAreStreamingInputs],
        orderly_from (by simp +contextual [OrderlyFrom, saysStreamingInput, saidLast, says, List.findSome?]), h⟩
  · exact ⟨[.setImplicitUseOfStdin true, .setImplicitUseOfStdout true, .setAllOperandsAsConfigArgTypeString],
      orderly_from (by simp +contextual [OrderlyFrom, saysStreamingInput, saidLast, says, List.findSome?]), h⟩
  · exact ⟨[.setImplicitUseOfStdout true, .ifNoOperandsGivenStdinImplicitlyUsed, .allOperandsAreStreamingInputs],
      orderly_from (by simp +contextual [OrderlyFrom, saysStreamingInput, saidLast, says, List.findSome?]), h⟩
  · exact ⟨[.setImplicitUseOfStdout true, .allOperandsAreStreamingInputs],
      orderly_from (by simp +contextual [OrderlyFrom, saysStreamingInput, saidLast, says, List.findSome?]), h⟩
  · unfold IOGen.grep at h
    dsimp only at h
    by_cases hq : containsAtLeastOneOf c ["-q"] = true <;>
      simp only [hq, Bool.not_true, Bool.not_false, Bool.false_eq_true, if_true, if_false] at h
    · split at h
      · split at h
        · exact ⟨[.setImplicitUseOfStdin true],
            orderly_from (by simp +contextual [OrderlyFrom, saysStreamingInput, saidLast, says, List.findSome?]), h⟩
        · exact ⟨[.allOperandsAreStreamingInputs],
            orderly_from (by simp +contextual [OrderlyFrom, saysStreamingInput, saidLast, says, List.findSome?]), h⟩
      · obtain ⟨i1, h1, h⟩ := bind_ok h
        have h1 : IOCall.exec c i .setFirstOperandAsConfigArgTypeString = .ok i1 := h1
        split at h
        · exact ⟨[.setFirstOperandAsConfigArgTypeString, .setImplicitUseOfStdin true],
            orderly_from (by simp +contextual [OrderlyFrom, saysStreamingInput, saidLast, says, List.findSome?]), by
            show (IOCall.exec c i .setFirstOperandAsConfigArgTypeString >>= fun i => IOCall.execAll c i [.setImplicitUseOfStdin true]) = _
            rw [h1]; exact h⟩
        · exact ⟨[.setFirstOperandAsConfigArgTypeString, .allButFirstOperandIsStreamingInput],
            orderly_from (by simp +contextual [OrderlyFrom, saysStreamingInput, saidLast, says, List.findSome?]), by
            show (IOCall.exec c i .setFirstOperandAsConfigArgTypeString >>= fun i => IOCall.execAll c i [.allButFirstOperandIsStreamingInput]) = _
            rw [h1]; exact h⟩
    · split at h
      · split at h
        · exact ⟨[.setImplicitUseOfStdout true, .setImplicitUseOfStdin true],
            orderly_from (by simp +contextual [OrderlyFrom, saysStreamingInput, saidLast, says, List.findSome?]), h⟩
        · exact ⟨[.setImplicitUseOfStdout true, .allOperandsAreStreamingInputs],
            orderly_from (by simp +contextual [OrderlyFrom, saysStreamingInput, saidLast, says, List.findSome?]), h⟩
      · obtain ⟨i1, h1, h⟩ := bind_ok h
        have h1 : IOCall.exec c i.setImplicitUseOfStdout .setFirstOperandAsConfigArgTypeString = .ok i1 := h1
        split at h
        · exact ⟨[.setImplicitUseOfStdout true, .setFirstOperandAsConfigArgTypeString, .setImplicitUseOfStdin true],
            orderly_from (by simp +contextual [OrderlyFrom, saysStreamingInput, saidLast, says, List.findSome?]), by
            show (IOCall.exec c i.setImplicitUseOfStdout .setFirstOperandAsConfigArgTypeString >>= fun i => IOCall.execAll c i [.setImplicitUseOfStdin true]) = _
            rw [h1]; exact h⟩
        · exact ⟨[.setImplicitUseOfStdout true, .setFirstOperandAsConfigArgTypeString, .allButFirstOperandIsStreamingInput],
            orderly_from (by simp +contextual [OrderlyFrom, saysStreamingInput, saidLast, says, List.findSome?]), by
            show (IOCall.exec c i.setImplicitUseOfStdout .setFirstOperandAsConfigArgTypeString >>= fun i => IOCall.execAll c i [.allButFirstOperandIsStreamingInput]) = _
            rw [h1]; exact h⟩
  · exact ⟨[.setImplicitUseOfStdout true, .ifNoOperandsGivenStdinImplicitlyUsed, .allOperandsAreStreamingInputs],
      orderly_from (by simp +contextual [OrderlyFrom, saysStreamingInput, saidLast, says, List.findSome?]), h⟩
  · exact ⟨[.allOperandsAreOtherOutputs],
      orderly_from (by simp +contextual [OrderlyFrom, saysStreamingInput, saidLast, says, List.findSome?]), h⟩
  · unfold IOGen.mv at h
    dsimp only at h
    split at h
    · exact ⟨[.allButLastOperandIsOtherInput, .onlyLastOperandIsOtherOutput],
        orderly_from (by simp +contextual [OrderlyFrom, saysStreamingInput, saidLast, says, List.findSome?]), by
        obtain ⟨i1, h1, h⟩ := bind_ok h
        have h1 : IOCall.exec c i .allButLastOperandIsOtherInput = .ok i1 := h1
        have h : IOCall.exec c i1 .onlyLastOperandIsOtherOutput = .ok i' := h
        simp only [IOCall.execAll, h1, h, bind, Except.bind]⟩
    · split at h
      · exact ⟨[.allOperandsAreOtherInputs],
          orderly_from (by simp +contextual [OrderlyFrom, saysStreamingInput, saidLast, says, List.findSome?]), h⟩
      · cases h
  · exact ⟨[.allOperandsAreOtherOutputs],
      orderly_from (by simp +contextual [OrderlyFrom, saysStreamingInput, saidLast, says, List.findSome?]), h⟩
  · unfold IOGen.sed at h
    dsimp only at h
    split at h
    · obtain ⟨i1, h1, h⟩ := bind_ok h
      have h1 : IOCall.exec c i.setImplicitUseOfStdin.setImplicitUseOfStdout .setFirstOperandAsConfigArgTypeString = .ok i1 := h1
      exact ⟨[.setImplicitUseOfStdin true, .setImplicitUseOfStdout true, .setFirstOperandAsConfigArgTypeString, .allButFirstOperandIsStreamingInput],
          orderly_from (by simp +contextual [OrderlyFrom, saysStreamingInput, saidLast, says, List.findSome?]), by
        show (IOCall.exec c i.setImplicitUseOfStdin.setImplicitUseOfStdout .setFirstOperandAsConfigArgTypeString >>= fun i => IOCall.execAll c i [.allButFirstOperandIsStreamingInput]) = _
        rw [h1]; exact h⟩
    · exact ⟨[.setImplicitUseOfStdin true, .setImplicitUseOfStdout true, .allOperandsAreStreamingInputs],
        orderly_from (by simp +contextual [OrderlyFrom, saysStreamingInput, saidLast, says, List.findSome?]), h⟩
  · obtain ⟨_, _, h⟩ := bind_ok h
    have h : IOCall.exec c i.setImplicitUseOfStdin.setImplicitUseOfStdout
      .setFirstOperandAsConfigArgTypeFilenameOrStdDescriptor = .ok i' := h
    exact ⟨[.setImplicitUseOfStdin true, .setImplicitUseOfStdout true, .setFirstOperandAsConfigArgTypeFilenameOrStdDescriptor],
        orderly_from (by simp +contextual [OrderlyFrom, saysStreamingInput, saidLast, says, List.findSome?]), by
      show (IOCall.exec c i.setImplicitUseOfStdin.setImplicitUseOfStdout
        .setFirstOperandAsConfigArgTypeFilenameOrStdDescriptor >>= fun i => .ok i) = _
      rw [h]; rfl⟩
  · exact ⟨[.setImplicitUseOfStdout true, .setAllOperandsAsConfigArgTypeString],
      orderly_from (by simp +contextual [OrderlyFrom, saysStreamingInput, saidLast, says, List.findSome?]), h⟩
  · unfold IOGen.sort at h
    by_cases h1 : containsAtLeastOneOf c ["-o"] = true <;>
      by_cases h2 : (decide (operandListLength c = 0) && !containsAtLeastOneOf c ["--files0-from"]) = true <;>
      simp only [h1, h2, Bool.not_true, Bool.not_false, Bool.false_eq_true, if_true, if_false] at h
    · exact ⟨[.setImplicitUseOfStdin true],
        orderly_from (by simp +contextual [OrderlyFrom, saysStreamingInput, saidLast, says, List.findSome?]), h⟩
    · exact ⟨[.allOperandsAreStreamingInputs],
        orderly_from (by simp +contextual [OrderlyFrom, saysStreamingInput, saidLast, says, List.findSome?]), h⟩
    · exact ⟨[.setImplicitUseOfStdout true, .setImplicitUseOfStdin true],
        orderly_from (by simp +contextual [OrderlyFrom, saysStreamingInput, saidLast, says, List.findSome?]), h⟩
    · exact ⟨[.setImplicitUseOfStdout true, .allOperandsAreStreamingInputs],
        orderly_from (by simp +contextual [OrderlyFrom, saysStreamingInput, saidLast, says, List.findSome?]), h⟩
  · exact ⟨[.setImplicitUseOfStdout true, .ifNoOperandsGivenStdinImplicitlyUsed, .allOperandsAreStreamingInputs],
      orderly_from (by simp +contextual [OrderlyFrom, saysStreamingInput, saidLast, says, List.findSome?]), h⟩
  · exact ⟨[.setImplicitUseOfStdin true, .setImplicitUseOfStdout true, .allOperandsAreStreamingOutputs],
      orderly_from (by simp +contextual [OrderlyFrom, saysStreamingInput, saidLast, says, List.findSome?]), h⟩
  · exact ⟨[.setImplicitUseOfStdin true, .setImplicitUseOfStdout true],
      orderly_from (by simp +contextual [OrderlyFrom, saysStreamingInput, saidLast, says, List.findSome?]), h⟩
  · exact ⟨[.setImplicitUseOfStdin true, .setImplicitUseOfStdout true],
      orderly_from (by simp +contextual [OrderlyFrom, saysStreamingInput, saidLast, says, List.findSome?]), h⟩
  · exact ⟨[.setImplicitUseOfStdin true, .setImplicitUseOfStdout true, .setAllOperandsAsConfigArgTypeString],
      orderly_from (by simp +contextual [OrderlyFrom, saysStreamingInput, saidLast, says, List.findSome?]), h⟩
  · unfold IOGen.uniq at h
    split at h
    · exact ⟨[.setImplicitUseOfStdin true, .setImplicitUseOfStdout true],
        orderly_from (by simp +contextual [OrderlyFrom, saysStreamingInput, saidLast, says, List.findSome?]), h⟩
    · split at h
      · exact ⟨[.allOperandsAreStreamingInputs, .setImplicitUseOfStdout true],
          orderly_from (by simp +contextual [OrderlyFrom, saysStreamingInput, saidLast, says, List.findSome?]), h⟩
      · split at h
        · have h : IOCall.exec c i .onlyLastOperandIsStreamOutput = .ok i' := h
          exact ⟨[.allButLastOperandIsStreamingInput, .onlyLastOperandIsStreamOutput],
              orderly_from (by simp +contextual [OrderlyFrom, saysStreamingInput, saidLast, says, List.findSome?]), by
            show (IOCall.exec c i .onlyLastOperandIsStreamOutput >>= fun i => .ok i) = _
            rw [h]; rfl⟩
        · cases h
  · unfold IOGen.wc at h
    split at h
    · cases h
    · split at h
      · exact ⟨[.setImplicitUseOfStdin true, .setImplicitUseOfStdout true],
          orderly_from (by simp +contextual [OrderlyFrom, saysStreamingInput, saidLast, says, List.findSome?]), h⟩
      · exact ⟨[.allOperandsAreStreamingInputs, .setImplicitUseOfStdout true],
          orderly_from (by simp +contextual [OrderlyFrom, saysStreamingInput, saidLast, says, List.findSome?]), h⟩
  · exact ⟨[.setAllOperandsAsArgString, .setImplicitUseOfStdin true, .setImplicitUseOfStdout true],
      orderly_from (by simp +contextual [OrderlyFrom, saysStreamingInput, saidLast, says, List.findSome?]), h⟩

/-- A generator that an author could write for a program that reads a configuration, reads the other operands and
writes the last one, on an invocation of a program without shipped description. -/
example : ∃ t, generateWith ⟨"join_all", [.flag "-v"], ["conf", "a", "-", "out"]⟩
      [.allOperandsAreOtherInputs, .setFirstOperandAsConfigArgTypeFilenameOrStdDescriptor, .onlyLastOperandIsStreamOutput,
        .setImplicitUseOfStdin false] = .ok t ∧
    t.operandList = [.io (.file "conf" .configInput), .io (.file "a" .otherInput), .io (.std .stdin .otherInput),
      .io (.file "out" .streamOutput)] ∧ t.implicitInput = none :=
  ⟨⟨"join_all", [.flag "-v"], [.io (.file "conf" .configInput), .io (.file "a" .otherInput), .io (.std .stdin .otherInput),
      .io (.file "out" .streamOutput)], none, none⟩, by decide +kernel, rfl, rfl⟩

example : Orderly 4 [.allOperandsAreOtherInputs, .setFirstOperandAsConfigArgTypeFilenameOrStdDescriptor,
    .onlyLastOperandIsStreamOutput, .setImplicitUseOfStdin false] :=
  orderly_from (by simp [OrderlyFrom, saysStreamingInput])

example : ∃ i, initialInfo ⟨"join_all", [.flag "-v"], ["conf", "a", "-", "out"]⟩ = .ok i :=
  ⟨.init [.plainString] 4, by decide +kernel⟩

/-- The calls of `grep PATTERN FILE` are orderly although one of them says "streaming input" after another call. -/
example : Orderly 2 [.setImplicitUseOfStdout true, .setFirstOperandAsConfigArgTypeString,
    .allButFirstOperandIsStreamingInput] :=
  orderly_from (by simp +contextual [OrderlyFrom, saysStreamingInput, saidLast, says, List.findSome?])

end PashAnn
