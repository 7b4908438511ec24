import Verif.Spec.Threads
import Verif.Lemmas.Heap

/-! Lemmas for C95: threads that take turns. -/

namespace PashAnn.Threads
open Spec

/-! ### Computations on one invocation -/

/-- A computation on one invocation that nobody else uses. -/
def runOn {α : Type} : Prog α → CommandInvocationWithIOVars → Py α × CommandInvocationWithIOVars
  | .done r, c => (r, c)
  | .step _ o k, c => runOn (k (o.run c).1) (o.run c).2

/-- All accesses are to one invocation. -/
inductive Only (a : Nat) {α : Type} : Prog α → Prop
  | done {r} : Only a (.done r)
  | step {o k} : (∀ r, Only a (k r)) → Only a (.step a o k)

theorem Only.bind {a : Nat} {α β : Type} {p : Prog α} {f : α → Prog β} (hp : Only a p) (hf : ∀ x, Only a (f x)) :
    Only a (p.bind f) := by
  induction hp with
  | @done r =>
      cases r with
      | ok x => exact hf x
      | error e => exact .done
  | step _ ih => exact .step ih

theorem Only.seq {a : Nat} {α β : Type} {p : Prog α} {f : α → Prog β} (hp : Only a p) (hf : ∀ x, Only a (f x)) :
    Only a (p >>= f) := hp.bind hf

theorem Only.pure {a : Nat} {α : Type} (x : α) : Only a (pure x : Prog α) := .done

theorem Only.perform {a : Nat} (o : Op) : Only a (perform a o) := .step fun _ => .done

theorem Only.attempt {a : Nat} {α : Type} {p : Prog α} (hp : Only a p) : Only a p.attempt := by
  induction hp with
  | done => exact .done
  | step _ ih => exact .step ih

theorem runOn_bind {α β : Type} (p : Prog α) (f : α → Prog β) (c : CommandInvocationWithIOVars) :
    runOn (p >>= f) c = match runOn p c with
      | (.ok x, c') => runOn (f x) c'
      | (.error e, c') => (.error e, c') := by
  show runOn (p.bind f) c = _
  induction p generalizing c with
  | done r => cases r <;> rfl
  | step a o k ih => exact ih _ _

theorem runOn_pure {α : Type} (x : α) (c : CommandInvocationWithIOVars) : runOn (pure x : Prog α) c = (.ok x, c) := rfl

theorem runOn_perform (a : Nat) (o : Op) (c : CommandInvocationWithIOVars) : runOn (perform a o) c = o.run c := rfl

theorem runOn_attempt {α : Type} (p : Prog α) (c : CommandInvocationWithIOVars) :
    runOn p.attempt c = (.ok (runOn p c).1, (runOn p c).2) := by
  induction p generalizing c with
  | done r => rfl
  | step a o k ih => exact ih _ _

theorem set_set (w : World) (a : Nat) (c d : CommandInvocationWithIOVars) : (w.set a c).set a d = w.set a d := by
  funext b; unfold World.set; split <;> rfl

theorem set_self (w : World) (a : Nat) : w.set a (w a) = w := by
  funext b; unfold World.set; split
  · rename_i h; rw [h]
  · rfl

theorem set_same (w : World) (a : Nat) (c : CommandInvocationWithIOVars) : w.set a c a = c := by simp [World.set]

theorem set_other (w : World) {a b : Nat} (c : CommandInvocationWithIOVars) (h : b ≠ a) : w.set a c b = w b := by
  simp [World.set, h]

theorem undisturbed_only {a : Nat} {α : Type} {p : Prog α} (hp : Only a p) (w : World) :
    undisturbed p w = ((runOn p (w a)).1, w.set a (runOn p (w a)).2) := by
  induction hp generalizing w with
  | done => simp [undisturbed, runOn, set_self]
  | step _ ih =>
      rw [undisturbed, ih, set_same, set_set]; rfl

theorem undisturbed_bind {α β : Type} (p : Prog α) (f : α → Prog β) (w : World) :
    undisturbed (p >>= f) w = match undisturbed p w with
      | (.ok x, w') => undisturbed (f x) w'
      | (.error e, w') => (.error e, w') := by
  show undisturbed (p.bind f) w = _
  induction p generalizing w with
  | done r => cases r <;> rfl
  | step a o k ih => exact ih _ _

theorem undisturbed_attempt {α : Type} (p : Prog α) (w : World) :
    undisturbed p.attempt w = (.ok (undisturbed p w).1, (undisturbed p w).2) := by
  induction p generalizing w with
  | done r => rfl
  | step a o k ih => exact ih _ _

/-! ### The methods use only their own invocation -/

theorem only_optionLoop {a : Nat} {σ : Type} {f : VarProg σ} (hf : ∀ s v, Only a (f s v)) :
    ∀ is s acc, Only a (optionLoop a f is s acc) := by
  intro is
  induction is with
  | nil => intro s acc; exact .done
  | cons i is ih =>
      intro s acc
      unfold optionLoop
      refine (Only.perform _).seq fun x => ?_
      split
      · refine (hf _ _).seq fun r => ?_
        split
        · exact ih _ _
        · exact .done
      · exact ih _ _

theorem only_operandLoop {a : Nat} {σ : Type} {f : VarProg σ} (hf : ∀ s v, Only a (f s v)) :
    ∀ is s acc, Only a (operandLoop a f is s acc) := by
  intro is
  induction is with
  | nil => intro s acc; exact .done
  | cons i is ih =>
      intro s acc
      unfold operandLoop
      refine (Only.perform _).seq fun x => ?_
      split
      · exact (hf _ _).seq fun r => ih _ _
      · exact ih _ _

theorem only_stream {a : Nat} {σ : Type} {f : VarProg σ} (hf : ∀ s v, Only a (f s v)) (s : σ) (v : Option IOVar) :
    Only a (flatMapStream f s v) := by
  cases v with
  | none => exact .done
  | some v =>
      refine (hf _ _).seq fun r => ?_
      split <;> exact .done

theorem only_flatMap {a : Nat} {σ : Type} {f : VarProg σ} (hf : ∀ s v, Only a (f s v)) (s : σ) :
    Only a (flatMapAnythingNonNames a f s) := by
  unfold flatMapAnythingNonNames
  refine Only.seq ?_ fun s => Only.seq ?_ fun s => Only.seq ?_ fun s => ?_
  · exact (Only.perform _).seq fun n => (only_optionLoop hf _ _ _).seq fun r => (Only.perform _).seq fun _ => .done
  · exact (Only.perform _).seq fun n => (only_operandLoop hf _ _ _).seq fun r => (Only.perform _).seq fun _ => .done
  · exact (Only.perform _).seq fun n => (only_stream hf _ _).seq fun r => (Only.perform _).seq fun _ => .done
  · exact (Only.perform _).seq fun n => (only_stream hf _ _).seq fun r => (Only.perform _).seq fun _ => .done

theorem only_replaceConsistently (a : Nat) (v w : IOVar) : Only a (replaceVarConsistently a v w) := by
  unfold replaceVarConsistently
  refine (Only.perform _).seq fun b => ?_
  split
  · exact (Only.perform _).seq fun x => (Only.perform _).seq fun _ => .done
  · exact .done

theorem only_substitute (a : Nat) (pred : AccessKind → Bool) (s : List IOVar) (v : IOVar) : Only a (substituteFun a pred s v) := by
  unfold substituteFun
  refine (Only.perform _).seq fun x => ?_
  split
  · split
    · exact .done
    · exact (only_replaceConsistently _ _ _).seq fun _ => .done
  · exact .done

theorem only_collect (a : Nat) (pred : AccessKind → Bool) (s : List IOVar) (v : IOVar) : Only a (collectFun a pred s v) :=
  (Only.perform _).seq fun _ => .done

theorem only_replace (a : Nat) (x : Option IOVar) (y : IOVar) (s : Unit) (v : IOVar) : Only a (replaceFun a x y s v) := by
  unfold replaceFun
  split
  · exact (only_replaceConsistently _ _ _).seq fun _ => .done
  · exact .done

theorem only_remove (a : Nat) (pred : AccessKind → Bool) (s : Unit) (v : IOVar) : Only a (removeFun a pred s v) := by
  unfold removeFun
  refine (Only.perform _).seq fun x => ?_
  split
  · exact (Only.perform _).seq fun _ => .done
  · exact .done

theorem only_copy (a : Nat) : Only a (copy a) :=
  (Only.perform _).seq fun _ => (Only.perform _).seq fun _ => (Only.perform _).seq fun _ => (Only.perform _).seq fun _ =>
    (Only.perform _).seq fun _ => (Only.perform _).seq fun _ => .done

theorem only_method (a : Nat) (m : Method) : Only a (m.prog a) := by
  cases m with
  | generateInputs => exact (only_flatMap (only_collect a _) _).seq fun _ => .done
  | generateOutputs => exact (only_flatMap (only_collect a _) _).seq fun _ => .done
  | hasOtherOutputs => exact ((only_flatMap (only_collect a _) _).seq fun _ => .done).seq fun _ => .done
  | getMapper => exact ((only_copy a).seq fun _ => .done).seq fun _ => .done
  | getAggregator => exact ((only_copy a).seq fun _ => (Only.perform _).seq fun _ => .done).seq fun _ => .done
  | substitute =>
      refine Only.seq ?_ fun _ => .done
      refine Only.seq ?_ fun _ => ?_
      · refine (only_flatMap (only_substitute a _) _).seq fun r => ?_
        split <;> exact .done
      · refine (only_flatMap (only_substitute a _) _).seq fun r => ?_
        split <;> exact .done
  | replaceVar => exact (only_flatMap (only_replace a _ _) _).seq fun _ => .done
  | removeStreamingInputs => exact (only_flatMap (only_remove a _) _).seq fun _ => .done
  | removeStreamingOutputs => exact (only_flatMap (only_remove a _) _).seq fun _ => .done

/-! ### A method that nobody disturbs does what the model on values says -/

/-- The program for a variable does what the function on values does; `enc` puts the dictionary and the state of the
thread together as the function on values has them. -/
def Simulates {σ τ : Type} (enc : AccessMap → σ → τ) (f : VarProg σ) (g : VarFun τ) : Prop :=
  ∀ c s v, match g (enc c.accessMap s) v with
    | .ok r => ∃ m s', r.2 = enc m s' ∧ runOn (f s v) c = (.ok (r.1, s'), { c with accessMap := m })
    | .error e => ∃ c', runOn (f s v) c = (.error e, c')

theorem sim_optionLoop {σ τ : Type} {enc : AccessMap → σ → τ} {f : VarProg σ} {g : VarFun τ} (h : Simulates enc f g)
    (a : Nat) : ∀ (rest pre : List FlagOptionWithIOVar) (c : CommandInvocationWithIOVars) (s : σ)
      (acc : List FlagOptionWithIOVar), c.flagOptionList = pre ++ rest →
    match PashAnn.flatMapFlagOptionList g (enc c.accessMap s) rest with
    | .ok r => ∃ m s', r.2 = enc m s' ∧ runOn (optionLoop a f (List.range' pre.length rest.length) s acc) c =
        (.ok (acc ++ r.1, s'), { c with accessMap := m })
    | .error e => ∃ c', runOn (optionLoop a f (List.range' pre.length rest.length) s acc) c = (.error e, c') := by
  intro rest
  induction rest with
  | nil =>
      intro pre c s acc hc
      refine ⟨c.accessMap, s, rfl, ?_⟩
      show (Except.ok (acc, s), c) = _
      rw [List.append_nil]
  | cons x rest ih =>
      intro pre c s acc hc
      have hx : c.flagOptionList[pre.length]? = some x := by rw [hc]; simp
      have hlen : (pre ++ [x]).length = pre.length + 1 := by simp
      have plain : ∀ s' (c' : CommandInvocationWithIOVars) acc', c'.flagOptionList = c.flagOptionList →
          match PashAnn.flatMapFlagOptionList g (enc c'.accessMap s') rest with
          | .ok r => ∃ m s'', r.2 = enc m s'' ∧ runOn (optionLoop a f (List.range' (pre.length + 1) rest.length) s' acc') c' =
              (.ok (acc' ++ r.1, s''), { c' with accessMap := m })
          | .error e => ∃ d, runOn (optionLoop a f (List.range' (pre.length + 1) rest.length) s' acc') c' = (.error e, d) := by
        intro s' c' acc' hc'
        have := ih (pre ++ [x]) c' s' acc' (by rw [hc', hc]; simp)
        rw [hlen] at this
        exact this
      rw [List.length_cons, List.range'_succ]
      have hrun : ∀ {β : Type} (k : FlagOptionWithIOVar → Prog β),
          runOn (perform a (.option pre.length) >>= k) c = runOn (k x) c := by
        intro β k
        rw [runOn_bind, runOn_perform]
        simp only [Op.run, hx]
      have other : (∀ n v, x ≠ .optionIO n (.var v)) →
          PashAnn.flatMapFlagOptionList g (enc c.accessMap s) (x :: rest) = (do
            let r' ← PashAnn.flatMapFlagOptionList g (enc c.accessMap s) rest
            .ok (x :: r'.1, r'.2)) ∧
          runOn (optionLoop a f (pre.length :: List.range' (pre.length + 1) rest.length) s acc) c =
            runOn (optionLoop a f (List.range' (pre.length + 1) rest.length) s (acc ++ [x])) c := by
        intro hne
        constructor
        · rw [PashAnn.flatMapFlagOptionList]
          exact fun n v h => hne n v h
        · rw [optionLoop, hrun]
          split
          · exact absurd rfl (hne _ _)
          · rfl
      by_cases hv : ∃ n v, x = .optionIO n (.var v)
      · obtain ⟨n, v, rfl⟩ := hv
        have hs := h c s v
        rw [PashAnn.flatMapFlagOptionList, optionLoop, hrun]
        simp only [runOn_bind]
        cases hg : g (enc c.accessMap s) v with
        | error e =>
            rw [hg] at hs
            obtain ⟨c', hs⟩ := hs
            exact ⟨c', by rw [hs]⟩
        | ok r =>
            rw [hg] at hs
            obtain ⟨m, s', h1, h2⟩ := hs
            rw [h2]
            obtain ⟨l, t⟩ := r
            simp only at h1 h2 ⊢
            subst h1
            match l with
            | [] => exact ⟨_, rfl⟩
            | _ :: _ :: _ => exact ⟨_, rfl⟩
            | [new] =>
                have := plain s' { c with accessMap := m } (acc ++ [.optionIO n (.var new)]) rfl
                simp only [bind, Except.bind] at this ⊢
                cases hr : PashAnn.flatMapFlagOptionList g (enc m s') rest with
                | error e => rw [hr] at this; exact this
                | ok r' =>
                    rw [hr] at this
                    obtain ⟨m', s'', e1, e2⟩ := this
                    exact ⟨m', s'', e1, by rw [e2]; simp⟩
      · obtain ⟨e1, e2⟩ := other (fun n v h => hv ⟨n, v, h⟩)
        have := plain s c (acc ++ [x]) rfl
        rw [e1, e2]
        simp only [bind, Except.bind]
        cases hr : PashAnn.flatMapFlagOptionList g (enc c.accessMap s) rest with
        | error e => rw [hr] at this; exact this
        | ok r' =>
            rw [hr] at this
            obtain ⟨m', s'', e1, e2⟩ := this
            exact ⟨m', s'', e1, by rw [e2]; simp⟩

theorem sim_operandLoop {σ τ : Type} {enc : AccessMap → σ → τ} {f : VarProg σ} {g : VarFun τ} (h : Simulates enc f g)
    (a : Nat) : ∀ (rest pre : List VArg) (c : CommandInvocationWithIOVars) (s : σ) (acc : List VArg),
      c.operandList = pre ++ rest →
    match PashAnn.flatMapOperandList g (enc c.accessMap s) rest with
    | .ok r => ∃ m s', r.2 = enc m s' ∧ runOn (operandLoop a f (List.range' pre.length rest.length) s acc) c =
        (.ok (acc ++ r.1, s'), { c with accessMap := m })
    | .error e => ∃ c', runOn (operandLoop a f (List.range' pre.length rest.length) s acc) c = (.error e, c') := by
  intro rest
  induction rest with
  | nil =>
      intro pre c s acc hc
      refine ⟨c.accessMap, s, rfl, ?_⟩
      show (Except.ok (acc, s), c) = _
      rw [List.append_nil]
  | cons x rest ih =>
      intro pre c s acc hc
      have hx : c.operandList[pre.length]? = some x := by rw [hc]; simp
      have hlen : (pre ++ [x]).length = pre.length + 1 := by simp
      have plain : ∀ s' (c' : CommandInvocationWithIOVars) acc', c'.operandList = c.operandList →
          match PashAnn.flatMapOperandList g (enc c'.accessMap s') rest with
          | .ok r => ∃ m s'', r.2 = enc m s'' ∧ runOn (operandLoop a f (List.range' (pre.length + 1) rest.length) s' acc') c' =
              (.ok (acc' ++ r.1, s''), { c' with accessMap := m })
          | .error e => ∃ d, runOn (operandLoop a f (List.range' (pre.length + 1) rest.length) s' acc') c' = (.error e, d) := by
        intro s' c' acc' hc'
        have := ih (pre ++ [x]) c' s' acc' (by rw [hc', hc]; simp)
        rw [hlen] at this
        exact this
      rw [List.length_cons, List.range'_succ]
      have hrun : ∀ {β : Type} (k : VArg → Prog β), runOn (perform a (.operand pre.length) >>= k) c = runOn (k x) c := by
        intro β k
        rw [runOn_bind, runOn_perform]
        simp only [Op.run, hx]
      by_cases hv : ∃ v, x = .var v
      · obtain ⟨v, rfl⟩ := hv
        have hs := h c s v
        rw [PashAnn.flatMapOperandList, operandLoop, hrun]
        simp only [runOn_bind]
        cases hg : g (enc c.accessMap s) v with
        | error e =>
            rw [hg] at hs
            obtain ⟨c', hs⟩ := hs
            exact ⟨c', by rw [hs]⟩
        | ok r =>
            rw [hg] at hs
            obtain ⟨m, s', h1, h2⟩ := hs
            rw [h2]
            obtain ⟨l, t⟩ := r
            simp only at h1 h2 ⊢
            subst h1
            have := plain s' { c with accessMap := m } (acc ++ l.map VArg.var) rfl
            simp only [bind, Except.bind] at this ⊢
            cases hr : PashAnn.flatMapOperandList g (enc m s') rest with
            | error e => rw [hr] at this; exact this
            | ok r' =>
                rw [hr] at this
                obtain ⟨m', s'', e1, e2⟩ := this
                exact ⟨m', s'', e1, by rw [e2]; simp⟩
      · have e1 : PashAnn.flatMapOperandList g (enc c.accessMap s) (x :: rest) = (do
            let r' ← PashAnn.flatMapOperandList g (enc c.accessMap s) rest
            .ok (x :: r'.1, r'.2)) := by
          rw [PashAnn.flatMapOperandList]
          exact fun v h => hv ⟨v, h⟩
        have e2 : runOn (operandLoop a f (pre.length :: List.range' (pre.length + 1) rest.length) s acc) c =
            runOn (operandLoop a f (List.range' (pre.length + 1) rest.length) s (acc ++ [x])) c := by
          rw [operandLoop, hrun]
          split
          · exact absurd ⟨_, rfl⟩ hv
          · rfl
        have := plain s c (acc ++ [x]) rfl
        rw [e1, e2]
        simp only [bind, Except.bind]
        cases hr : PashAnn.flatMapOperandList g (enc c.accessMap s) rest with
        | error e => rw [hr] at this; exact this
        | ok r' =>
            rw [hr] at this
            obtain ⟨m', s'', e1, e2⟩ := this
            exact ⟨m', s'', e1, by rw [e2]; simp⟩

theorem sim_stream {σ τ : Type} {enc : AccessMap → σ → τ} {f : VarProg σ} {g : VarFun τ} (h : Simulates enc f g)
    (c : CommandInvocationWithIOVars) (s : σ) (x : Option IOVar) :
    match PashAnn.flatMapImplicit g (enc c.accessMap s) x with
    | .ok r => ∃ m s', r.2 = enc m s' ∧ runOn (flatMapStream f s x) c = (.ok (r.1, s'), { c with accessMap := m })
    | .error e => ∃ c', runOn (flatMapStream f s x) c = (.error e, c') := by
  cases x with
  | none => exact ⟨c.accessMap, s, rfl, rfl⟩
  | some v =>
      have hs := h c s v
      rw [PashAnn.flatMapImplicit, flatMapStream]
      simp only [runOn_bind]
      cases hg : g (enc c.accessMap s) v with
      | error e =>
          rw [hg] at hs
          obtain ⟨c', hs⟩ := hs
          exact ⟨c', by rw [hs]⟩
      | ok r =>
          rw [hg] at hs
          obtain ⟨m, s', h1, h2⟩ := hs
          rw [h2]
          obtain ⟨l, t⟩ := r
          simp only at h1 h2 ⊢
          subst h1
          match l with
          | [] => exact ⟨m, s', rfl, rfl⟩
          | [new] => exact ⟨m, s', rfl, rfl⟩
          | _ :: _ :: _ => exact ⟨_, rfl⟩

theorem sim_options {σ τ : Type} {enc : AccessMap → σ → τ} {f : VarProg σ} {g : VarFun τ} (h : Simulates enc f g)
    (a : Nat) (c : CommandInvocationWithIOVars) (s : σ) :
    match PashAnn.flatMapFlagOptionList g (enc c.accessMap s) c.flagOptionList with
    | .ok r => ∃ m s', r.2 = enc m s' ∧
        runOn (flatMapOptions a f s) c = (.ok s', { c with flagOptionList := r.1, accessMap := m })
    | .error e => ∃ c', runOn (flatMapOptions a f s) c = (.error e, c') := by
  have h1 := sim_optionLoop h a c.flagOptionList [] c s [] rfl
  simp only [List.length_nil, ← List.range_eq_range'] at h1
  unfold flatMapOptions
  rw [runOn_bind, runOn_perform]
  simp only [Op.run]
  rw [runOn_bind]
  cases e1 : PashAnn.flatMapFlagOptionList g (enc c.accessMap s) c.flagOptionList with
  | error e =>
      rw [e1] at h1
      obtain ⟨c', h1⟩ := h1
      exact ⟨c', by rw [h1]⟩
  | ok r =>
      rw [e1] at h1
      obtain ⟨m, s', e2, h1⟩ := h1
      exact ⟨m, s', e2, by rw [h1]; rfl⟩

theorem sim_operands {σ τ : Type} {enc : AccessMap → σ → τ} {f : VarProg σ} {g : VarFun τ} (h : Simulates enc f g)
    (a : Nat) (c : CommandInvocationWithIOVars) (s : σ) :
    match PashAnn.flatMapOperandList g (enc c.accessMap s) c.operandList with
    | .ok r => ∃ m s', r.2 = enc m s' ∧
        runOn (flatMapOperands a f s) c = (.ok s', { c with operandList := r.1, accessMap := m })
    | .error e => ∃ c', runOn (flatMapOperands a f s) c = (.error e, c') := by
  have h1 := sim_operandLoop h a c.operandList [] c s [] rfl
  simp only [List.length_nil, ← List.range_eq_range'] at h1
  unfold flatMapOperands
  rw [runOn_bind, runOn_perform]
  simp only [Op.run]
  rw [runOn_bind]
  cases e1 : PashAnn.flatMapOperandList g (enc c.accessMap s) c.operandList with
  | error e =>
      rw [e1] at h1
      obtain ⟨c', h1⟩ := h1
      exact ⟨c', by rw [h1]⟩
  | ok r =>
      rw [e1] at h1
      obtain ⟨m, s', e2, h1⟩ := h1
      exact ⟨m, s', e2, by rw [h1]; rfl⟩

theorem sim_input {σ τ : Type} {enc : AccessMap → σ → τ} {f : VarProg σ} {g : VarFun τ} (h : Simulates enc f g)
    (a : Nat) (c : CommandInvocationWithIOVars) (s : σ) :
    match PashAnn.flatMapImplicit g (enc c.accessMap s) c.implicitInput with
    | .ok r => ∃ m s', r.2 = enc m s' ∧
        runOn (flatMapInput a f s) c = (.ok s', { c with implicitInput := r.1, accessMap := m })
    | .error e => ∃ c', runOn (flatMapInput a f s) c = (.error e, c') := by
  have h1 := sim_stream h c s c.implicitInput
  unfold flatMapInput
  rw [runOn_bind, runOn_perform]
  simp only [Op.run]
  rw [runOn_bind]
  cases e1 : PashAnn.flatMapImplicit g (enc c.accessMap s) c.implicitInput with
  | error e =>
      rw [e1] at h1
      obtain ⟨c', h1⟩ := h1
      exact ⟨c', by rw [h1]⟩
  | ok r =>
      rw [e1] at h1
      obtain ⟨m, s', e2, h1⟩ := h1
      exact ⟨m, s', e2, by rw [h1]; rfl⟩

theorem sim_output {σ τ : Type} {enc : AccessMap → σ → τ} {f : VarProg σ} {g : VarFun τ} (h : Simulates enc f g)
    (a : Nat) (c : CommandInvocationWithIOVars) (s : σ) :
    match PashAnn.flatMapImplicit g (enc c.accessMap s) c.implicitOutput with
    | .ok r => ∃ m s', r.2 = enc m s' ∧
        runOn (flatMapOutput a f s) c = (.ok s', { c with implicitOutput := r.1, accessMap := m })
    | .error e => ∃ c', runOn (flatMapOutput a f s) c = (.error e, c') := by
  have h1 := sim_stream h c s c.implicitOutput
  unfold flatMapOutput
  rw [runOn_bind, runOn_perform]
  simp only [Op.run]
  rw [runOn_bind]
  cases e1 : PashAnn.flatMapImplicit g (enc c.accessMap s) c.implicitOutput with
  | error e =>
      rw [e1] at h1
      obtain ⟨c', h1⟩ := h1
      exact ⟨c', by rw [h1]⟩
  | ok r =>
      rw [e1] at h1
      obtain ⟨m, s', e2, h1⟩ := h1
      exact ⟨m, s', e2, by rw [h1]; rfl⟩

theorem py_ok_bind {α β : Type} (x : α) (f : α → Py β) : ((Except.ok x : Py α) >>= f) = f x := rfl

theorem py_error_bind {α β : Type} (e : PyErr) (f : α → Py β) : ((Except.error e : Py α) >>= f) = .error e := rfl

theorem sim_flatMap {σ τ : Type} {enc : AccessMap → σ → τ} {f : VarProg σ} {g : VarFun τ} (h : Simulates enc f g)
    (a : Nat) (c : CommandInvocationWithIOVars) (s : σ) :
    match PashAnn.flatMapAnythingNonNames g (enc c.accessMap s) c with
    | .ok r => ∃ m s', r.2 = enc m s' ∧
        runOn (flatMapAnythingNonNames a f s) c = (.ok s', { r.1 with accessMap := m })
    | .error e => ∃ c', runOn (flatMapAnythingNonNames a f s) c = (.error e, c') := by
  have h1 := sim_options h a c s
  unfold PashAnn.flatMapAnythingNonNames flatMapAnythingNonNames
  rw [runOn_bind]
  cases e1 : PashAnn.flatMapFlagOptionList g (enc c.accessMap s) c.flagOptionList with
  | error e => rw [e1] at h1; obtain ⟨c', h1⟩ := h1; exact ⟨c', by rw [h1]⟩
  | ok r1 =>
    rw [e1] at h1
    obtain ⟨m1, s1, e1', h1⟩ := h1
    rw [h1, py_ok_bind, e1']
    simp only [runOn_bind]
    have h2 := sim_operands h a { c with flagOptionList := r1.1, accessMap := m1 } s1
    simp only at h2
    cases e2 : PashAnn.flatMapOperandList g (enc m1 s1) c.operandList with
    | error e => rw [e2] at h2; obtain ⟨c', h2⟩ := h2; exact ⟨c', by rw [h2]⟩
    | ok r2 =>
      rw [e2] at h2
      obtain ⟨m2, s2, e2', h2⟩ := h2
      rw [h2, py_ok_bind, e2']
      simp only
      have h3 := sim_input h a { c with flagOptionList := r1.1, operandList := r2.1, accessMap := m2 } s2
      simp only at h3
      cases e3 : PashAnn.flatMapImplicit g (enc m2 s2) c.implicitInput with
      | error e => rw [e3] at h3; obtain ⟨c', h3⟩ := h3; exact ⟨c', by rw [h3]⟩
      | ok r3 =>
        rw [e3] at h3
        obtain ⟨m3, s3, e3', h3⟩ := h3
        rw [h3, py_ok_bind, e3']
        simp only
        have h4 := sim_output h a { c with flagOptionList := r1.1, operandList := r2.1, implicitInput := r3.1, accessMap := m3 } s3
        simp only at h4
        cases e4 : PashAnn.flatMapImplicit g (enc m3 s3) c.implicitOutput with
        | error e => rw [e4] at h4; obtain ⟨c', h4⟩ := h4; exact ⟨c', by rw [h4]⟩
        | ok r4 =>
          rw [e4] at h4
          obtain ⟨m4, s4, e4', h4⟩ := h4
          rw [h4, py_ok_bind]
          exact ⟨m4, s4, e4', rfl⟩

/-! ### The functions applied to variables -/

theorem runOn_lookup {β : Type} (a : Nat) (v : IOVar) (k : AccessKind → Prog β) (c : CommandInvocationWithIOVars) :
    runOn (perform a (.lookup v) >>= k) c = match c.accessMap.getItem v with
      | .ok x => runOn (k x) c
      | .error e => (.error e, c) := by
  rw [runOn_bind, runOn_perform]
  simp only [Op.run]
  cases c.accessMap.getItem v <;> rfl

theorem runOn_pop {β : Type} (a : Nat) (v : IOVar) (k : AccessKind → Prog β) (c : CommandInvocationWithIOVars) :
    runOn (perform a (.pop v) >>= k) c = match c.accessMap.pop v with
      | .ok r => runOn (k r.1) { c with accessMap := r.2 }
      | .error e => (.error e, c) := by
  rw [runOn_bind, runOn_perform]
  simp only [Op.run]
  cases c.accessMap.pop v <;> rfl

theorem runOn_store {β : Type} (a : Nat) (v : IOVar) (x : AccessKind) (k : Unit → Prog β) (c : CommandInvocationWithIOVars) :
    runOn (perform a (.store v x) >>= k) c = runOn (k ()) { c with accessMap := c.accessMap.set v x } := by
  rw [runOn_bind, runOn_perform]
  rfl

theorem runOn_replaceConsistently (a : Nat) (c : CommandInvocationWithIOVars) (v w : IOVar) :
    match PashAnn.replaceVarConsistently c.accessMap v w with
    | .ok r => runOn (replaceVarConsistently a v w) c = (.ok r.1, { c with accessMap := r.2 })
    | .error e => runOn (replaceVarConsistently a v w) c = (.error e, c) := by
  unfold PashAnn.replaceVarConsistently replaceVarConsistently
  rw [runOn_bind, runOn_perform]
  simp only [Op.run]
  cases hv : c.accessMap.get? v with
  | none => rfl
  | some x =>
      simp only [Option.isSome_some, pyAssert, if_true, py_ok_bind, AccessMap.pop, hv]
      have h1 := runOn_pop a v (fun x => (do let _ ← perform a (.store w x); pure w : Prog IOVar)) c
      simp only [AccessMap.pop, hv] at h1
      exact h1.trans (runOn_store a w x (fun _ => pure w) _)

theorem sim_substitute (a : Nat) (pred : AccessKind → Bool) :
    Simulates (fun m s => (m, s)) (substituteFun a pred) (PashAnn.substituteFun pred) := by
  intro c s v
  unfold PashAnn.substituteFun substituteFun
  rw [runOn_lookup]
  cases hv : AccessMap.getItem c.accessMap v with
  | error e => exact ⟨c, rfl⟩
  | ok x =>
      simp only [py_ok_bind]
      cases hp : pred x with
      | false => exact ⟨c.accessMap, s, rfl, rfl⟩
      | true =>
          simp only [if_true]
          cases s with
          | nil => exact ⟨c, rfl⟩
          | cons n s =>
              simp only [runOn_bind]
              have := runOn_replaceConsistently a c v n
              cases hr : PashAnn.replaceVarConsistently c.accessMap v n with
              | error e => rw [hr] at this; rw [this]; exact ⟨c, rfl⟩
              | ok r => rw [hr] at this; rw [this]; exact ⟨r.2, s, rfl, rfl⟩

theorem sim_replace (a : Nat) (x : Option IOVar) (y : IOVar) :
    Simulates (fun m _ => m) (replaceFun a x y) (PashAnn.replaceFun x y) := by
  intro c s v
  unfold PashAnn.replaceFun replaceFun
  by_cases hx : some v = x
  · simp only [hx, if_true, runOn_bind]
    have := runOn_replaceConsistently a c v y
    cases hr : PashAnn.replaceVarConsistently c.accessMap v y with
    | error e => rw [hr] at this; rw [this]; exact ⟨c, rfl⟩
    | ok r => rw [hr] at this; rw [this]; exact ⟨r.2, (), rfl, rfl⟩
  · simp only [hx, if_false]
    exact ⟨c.accessMap, (), rfl, rfl⟩

theorem sim_remove (a : Nat) (pred : AccessKind → Bool) :
    Simulates (fun m _ => m) (removeFun a pred) (PashAnn.removeFun pred) := by
  intro c s v
  unfold PashAnn.removeFun removeFun
  rw [runOn_lookup]
  cases hv : AccessMap.getItem c.accessMap v with
  | error e => exact ⟨c, rfl⟩
  | ok x =>
      simp only [py_ok_bind]
      cases hp : pred x with
      | false => exact ⟨c.accessMap, (), rfl, rfl⟩
      | true =>
          simp only [if_true]
          have h1 := runOn_pop a v (fun _ => (pure ([], ()) : Prog (List IOVar × Unit))) c
          cases hr : AccessMap.pop c.accessMap v with
          | error e => rw [hr] at h1; exact ⟨c, h1⟩
          | ok r => rw [hr] at h1; exact ⟨r.2, (), rfl, h1⟩

/-! ### Computations that only ask -/

/-- On the invocation `c` with the number `a` the computation gives `r`, and no access changes the invocation. -/
inductive Quiet (a : Nat) (c : CommandInvocationWithIOVars) {α : Type} : Prog α → Py α → Prop
  | done {r} : Quiet a c (.done r) r
  | step {o k r} : (o.run c).2 = c → Quiet a c (k (o.run c).1) r → Quiet a c (.step a o k) r

theorem Quiet.bind {a : Nat} {c : CommandInvocationWithIOVars} {α β : Type} {p : Prog α} {x : Py α} {f : α → Prog β} {r : Py β}
    (hp : Quiet a c p x) (hf : match (generalizing := false) x with
      | .ok y => Quiet a c (f y) r
      | .error e => r = .error e) : Quiet a c (p >>= f) r := by
  show Quiet a c (p.bind f) r
  induction hp with
  | @done x =>
      cases x with
      | ok y => exact hf
      | error e => rw [show r = .error e from hf]; exact .done
  | step h1 _ ih => exact .step h1 (ih hf)

theorem Quiet.perform {a : Nat} {c : CommandInvocationWithIOVars} {o : Op} (h : (o.run c).2 = c) :
    Quiet a c (perform a o) (o.run c).1 := .step h .done

theorem Quiet.runOn {a : Nat} {c : CommandInvocationWithIOVars} {α : Type} {p : Prog α} {r : Py α} (h : Quiet a c p r) :
    runOn p c = (r, c) := by
  induction h with
  | done => rfl
  | step h1 _ ih => rw [Threads.runOn, h1, ih]

theorem Quiet.attempt {a : Nat} {c : CommandInvocationWithIOVars} {α : Type} {p : Prog α} {r : Py α} (h : Quiet a c p r) :
    Quiet a c p.attempt (.ok r) := by
  induction h with
  | done => exact .done
  | step h1 _ ih => exact .step h1 ih

theorem quiet_collect (a : Nat) (c : CommandInvocationWithIOVars) (pred : AccessKind → Bool) (s : List IOVar) (v : IOVar) :
    Quiet a c (collectFun a pred s v) (PashAnn.collectFun pred c.accessMap s v) := by
  unfold collectFun PashAnn.collectFun
  refine (Quiet.perform (o := .lookup v) rfl).bind ?_
  simp only [Op.run]
  cases AccessMap.getItem c.accessMap v with
  | ok x => exact .done
  | error e => rfl

theorem quiet_optionLoop {a : Nat} {c : CommandInvocationWithIOVars} {σ : Type} {f : VarProg σ} {g : VarFun σ}
    (h : ∀ s v, Quiet a c (f s v) (g s v)) : ∀ (rest pre : List FlagOptionWithIOVar) (s : σ)
      (acc : List FlagOptionWithIOVar), c.flagOptionList = pre ++ rest →
    Quiet a c (optionLoop a f (List.range' pre.length rest.length) s acc)
      ((PashAnn.flatMapFlagOptionList g s rest).map fun r => (acc ++ r.1, r.2)) := by
  intro rest
  induction rest with
  | nil =>
      intro pre s acc hc
      show Quiet a c (.done (.ok (acc, s))) (.ok (acc ++ [], s))
      rw [List.append_nil]; exact .done
  | cons x rest ih =>
      intro pre s acc hc
      have hx : c.flagOptionList[pre.length]? = some x := by rw [hc]; simp
      have plain : ∀ s' acc', Quiet a c (optionLoop a f (List.range' (pre.length + 1) rest.length) s' acc')
          ((PashAnn.flatMapFlagOptionList g s' rest).map fun r => (acc' ++ r.1, r.2)) := by
        intro s' acc'
        have := ih (pre ++ [x]) s' acc' (by rw [hc]; simp)
        rwa [show (pre ++ [x]).length = pre.length + 1 by simp] at this
      rw [List.length_cons, List.range'_succ, optionLoop]
      refine (Quiet.perform (o := .option pre.length) rfl).bind ?_
      simp only [Op.run, hx]
      by_cases hv : ∃ n v, x = .optionIO n (.var v)
      · obtain ⟨n, v, rfl⟩ := hv
        rw [PashAnn.flatMapFlagOptionList]
        refine (h s v).bind ?_
        cases hg : g s v with
        | error e => rfl
        | ok r =>
            obtain ⟨l, t⟩ := r
            match l with
            | [] => exact .done
            | _ :: _ :: _ => exact .done
            | [new] =>
                have := plain t (acc ++ [.optionIO n (.var new)])
                rw [py_ok_bind]
                show Quiet a c (optionLoop a f _ t (acc ++ [.optionIO n (.var new)])) _
                cases hr : PashAnn.flatMapFlagOptionList g t rest with
                | error e => rw [hr] at this; exact this
                | ok r' => rw [hr] at this; simpa [Except.map, bind, Except.bind] using this
      · have e1 : PashAnn.flatMapFlagOptionList g s (x :: rest) = (do
            let r' ← PashAnn.flatMapFlagOptionList g s rest
            .ok (x :: r'.1, r'.2)) := by
          rw [PashAnn.flatMapFlagOptionList]
          exact fun n v h => hv ⟨n, v, h⟩
        have := plain s (acc ++ [x])
        rw [e1]
        split
        · exact absurd ⟨_, _, rfl⟩ hv
        · cases hr : PashAnn.flatMapFlagOptionList g s rest with
          | error e => rw [hr] at this; exact this
          | ok r' => rw [hr] at this; simpa [Except.map, bind, Except.bind] using this

theorem quiet_operandLoop {a : Nat} {c : CommandInvocationWithIOVars} {σ : Type} {f : VarProg σ} {g : VarFun σ}
    (h : ∀ s v, Quiet a c (f s v) (g s v)) : ∀ (rest pre : List VArg) (s : σ)
      (acc : List VArg), c.operandList = pre ++ rest →
    Quiet a c (operandLoop a f (List.range' pre.length rest.length) s acc)
      ((PashAnn.flatMapOperandList g s rest).map fun r => (acc ++ r.1, r.2)) := by
  intro rest
  induction rest with
  | nil =>
      intro pre s acc hc
      show Quiet a c (.done (.ok (acc, s))) (.ok (acc ++ [], s))
      rw [List.append_nil]; exact .done
  | cons x rest ih =>
      intro pre s acc hc
      have hx : c.operandList[pre.length]? = some x := by rw [hc]; simp
      have plain : ∀ s' acc', Quiet a c (operandLoop a f (List.range' (pre.length + 1) rest.length) s' acc')
          ((PashAnn.flatMapOperandList g s' rest).map fun r => (acc' ++ r.1, r.2)) := by
        intro s' acc'
        have := ih (pre ++ [x]) s' acc' (by rw [hc]; simp)
        rwa [show (pre ++ [x]).length = pre.length + 1 by simp] at this
      rw [List.length_cons, List.range'_succ, operandLoop]
      refine (Quiet.perform (o := .operand pre.length) rfl).bind ?_
      simp only [Op.run, hx]
      by_cases hv : ∃ v, x = .var v
      · obtain ⟨v, rfl⟩ := hv
        rw [PashAnn.flatMapOperandList]
        refine (h s v).bind ?_
        cases hg : g s v with
        | error e => rfl
        | ok r =>
            have := plain r.2 (acc ++ r.1.map VArg.var)
            rw [py_ok_bind]
            show Quiet a c (operandLoop a f _ r.2 (acc ++ r.1.map VArg.var)) _
            cases hr : PashAnn.flatMapOperandList g r.2 rest with
            | error e => rw [hr] at this; exact this
            | ok r' => rw [hr] at this; simpa [Except.map, bind, Except.bind] using this
      · have e1 : PashAnn.flatMapOperandList g s (x :: rest) = (do
            let r' ← PashAnn.flatMapOperandList g s rest
            .ok (x :: r'.1, r'.2)) := by
          rw [PashAnn.flatMapOperandList]
          exact fun v h => hv ⟨v, h⟩
        have := plain s (acc ++ [x])
        rw [e1]
        split
        · exact absurd ⟨_, rfl⟩ hv
        · cases hr : PashAnn.flatMapOperandList g s rest with
          | error e => rw [hr] at this; exact this
          | ok r' => rw [hr] at this; simpa [Except.map, bind, Except.bind] using this

theorem quiet_stream {a : Nat} {c : CommandInvocationWithIOVars} {σ : Type} {f : VarProg σ} {g : VarFun σ}
    (h : ∀ s v, Quiet a c (f s v) (g s v)) (s : σ) (x : Option IOVar) :
    Quiet a c (flatMapStream f s x) (PashAnn.flatMapImplicit g s x) := by
  cases x with
  | none => exact .done
  | some v =>
      refine (h s v).bind ?_
      rw [PashAnn.flatMapImplicit]
      cases hg : g s v with
      | error e => rfl
      | ok r =>
          obtain ⟨l, t⟩ := r
          match l with
          | [] => exact .done
          | [_] => exact .done
          | _ :: _ :: _ => exact .done

theorem quiet_flatMap {a : Nat} {c : CommandInvocationWithIOVars} {σ : Type} {f : VarProg σ} {g : VarFun σ}
    (h : ∀ s v, Quiet a c (f s v) (g s v)) (hro : Heap.ReadOnly g) (s : σ) :
    Quiet a c (flatMapAnythingNonNames a f s) ((PashAnn.flatMapAnythingNonNames g s c).map (·.2)) := by
  have h1 : ∀ s, Quiet a c (flatMapOptions a f s) ((PashAnn.flatMapFlagOptionList g s c.flagOptionList).map (·.2)) := by
    intro s
    refine (Quiet.perform (o := .optionCount) rfl).bind ?_
    have := quiet_optionLoop h c.flagOptionList [] s [] rfl
    rw [List.length_nil, ← List.range_eq_range'] at this
    refine this.bind ?_
    cases hr : PashAnn.flatMapFlagOptionList g s c.flagOptionList with
    | error e => rfl
    | ok r =>
        have hl := Heap.readOnly_flags hro _ _ hr
        refine (Quiet.perform (o := .storeOptions r.1) ?_).bind .done
        show { c with flagOptionList := r.1 } = c
        rw [hl]
  have h2 : ∀ s, Quiet a c (flatMapOperands a f s) ((PashAnn.flatMapOperandList g s c.operandList).map (·.2)) := by
    intro s
    refine (Quiet.perform (o := .operandCount) rfl).bind ?_
    have := quiet_operandLoop h c.operandList [] s [] rfl
    rw [List.length_nil, ← List.range_eq_range'] at this
    refine this.bind ?_
    cases hr : PashAnn.flatMapOperandList g s c.operandList with
    | error e => rfl
    | ok r =>
        have hl := Heap.readOnly_operands hro _ _ hr
        refine (Quiet.perform (o := .storeOperands r.1) ?_).bind .done
        show { c with operandList := r.1 } = c
        rw [hl]
  have h3 : ∀ s, Quiet a c (flatMapInput a f s) ((PashAnn.flatMapImplicit g s c.implicitInput).map (·.2)) := by
    intro s
    refine (Quiet.perform (o := .input) rfl).bind ?_
    refine (quiet_stream h s c.implicitInput).bind ?_
    cases hr : PashAnn.flatMapImplicit g s c.implicitInput with
    | error e => rfl
    | ok r =>
        have hl := Heap.readOnly_implicit hro _ _ hr
        refine (Quiet.perform (o := .storeInput r.1) ?_).bind .done
        show { c with implicitInput := r.1 } = c
        rw [hl]
  have h4 : ∀ s, Quiet a c (flatMapOutput a f s) ((PashAnn.flatMapImplicit g s c.implicitOutput).map (·.2)) := by
    intro s
    refine (Quiet.perform (o := .output) rfl).bind ?_
    refine (quiet_stream h s c.implicitOutput).bind ?_
    cases hr : PashAnn.flatMapImplicit g s c.implicitOutput with
    | error e => rfl
    | ok r =>
        have hl := Heap.readOnly_implicit hro _ _ hr
        refine (Quiet.perform (o := .storeOutput r.1) ?_).bind .done
        show { c with implicitOutput := r.1 } = c
        rw [hl]
  unfold flatMapAnythingNonNames PashAnn.flatMapAnythingNonNames
  refine (h1 s).bind ?_
  cases r1 : PashAnn.flatMapFlagOptionList g s c.flagOptionList with
  | error e => rfl
  | ok fos =>
    refine (h2 fos.2).bind ?_
    rw [py_ok_bind]
    cases r2 : PashAnn.flatMapOperandList g fos.2 c.operandList with
    | error e => rfl
    | ok ops =>
      refine (h3 ops.2).bind ?_
      rw [py_ok_bind]
      cases r3 : PashAnn.flatMapImplicit g ops.2 c.implicitInput with
      | error e => rfl
      | ok inp =>
        rw [py_ok_bind]
        have := h4 inp.2
        cases r4 : PashAnn.flatMapImplicit g inp.2 c.implicitOutput with
        | error e => rw [r4] at this; exact this
        | ok out => rw [r4] at this; exact this

theorem quiet_copy (a : Nat) (c : CommandInvocationWithIOVars) : Quiet a c (copy a) (.ok c) :=
  (Quiet.perform (o := .name) rfl).bind ((Quiet.perform (o := .options) rfl).bind ((Quiet.perform (o := .operands) rfl).bind
    ((Quiet.perform (o := .input) rfl).bind ((Quiet.perform (o := .output) rfl).bind
      ((Quiet.perform (o := .access) rfl).bind .done)))))

/-- A method that only asks gives the answer it has on values, and no access changes the invocation. -/
theorem quiet_method (a : Nat) (c : CommandInvocationWithIOVars) (m : Method) (hm : m.Asks) :
    ∃ r, m.effect c = r.map (fun x => (x, c)) ∧ Quiet a c (m.prog a) r := by
  have col : ∀ pred : AccessKind → Bool, ∃ x : Py (List IOVar),
      PashAnn.flatMapAnythingNonNames (PashAnn.collectFun pred c.accessMap) [] c = x.map (fun l => (c, l)) ∧
      Quiet a c (flatMapAnythingNonNames a (collectFun a pred) []) x := by
    intro pred
    refine ⟨_, ?_, quiet_flatMap (quiet_collect a c pred) (Heap.collect_readOnly pred c.accessMap) []⟩
    cases hr : PashAnn.flatMapAnythingNonNames (PashAnn.collectFun pred c.accessMap) [] c with
    | error e => rfl
    | ok r =>
        have := Heap.readOnly_traverse (Heap.collect_readOnly pred c.accessMap) hr
        show Except.ok r = Except.ok (c, r.2)
        rw [← this]
  cases m with
  | generateInputs =>
      obtain ⟨x, h1, h2⟩ := col AccessKind.isStreamInput
      refine ⟨x.map .vars, ?_, h2.bind ?_⟩
      · unfold Method.effect CommandInvocationWithIOVars.generateInputs
        rw [h1]; cases x <;> rfl
      · cases x with
        | ok l => exact .done
        | error e => rfl
  | generateOutputs =>
      obtain ⟨x, h1, h2⟩ := col AccessKind.isAnyOutput
      refine ⟨x.map .vars, ?_, h2.bind ?_⟩
      · unfold Method.effect CommandInvocationWithIOVars.generateOutputs
        rw [h1]; cases x <;> rfl
      · cases x with
        | ok l => exact .done
        | error e => rfl
  | hasOtherOutputs =>
      obtain ⟨x, h1, h2⟩ := col AccessKind.isOtherOutput
      refine ⟨x.map fun l => .bool (decide (l.length > 0)), ?_, ?_⟩
      · unfold Method.effect CommandInvocationWithIOVars.hasOtherOutputs
        rw [h1]; cases x <;> rfl
      · refine Quiet.bind (x := x.map fun l => decide (l.length > 0)) (h2.bind ?_) ?_
        · cases x with
          | ok l => exact .done
          | error e => rfl
        · cases x with
          | ok l => exact .done
          | error e => rfl
  | getMapper ms i o aux =>
      refine ⟨(ms.getMapper c i o aux).map .command, ?_, ?_⟩
      · show (ms.getMapper c i o aux >>= fun r => pure (Answer.command r, c)) = _
        cases ms.getMapper c i o aux <;> rfl
      · refine Quiet.bind (x := ms.getMapper c i o aux) ((quiet_copy a c).bind .done) ?_
        cases ms.getMapper c i o aux with
        | ok l => exact .done
        | error e => rfl
  | getAggregator g is o =>
      refine ⟨(g.getAggregator c is o).map .aggregator, ?_, ?_⟩
      · show (g.getAggregator c is o >>= fun r => pure (Answer.aggregator r, c)) = _
        cases g.getAggregator c is o <;> rfl
      · refine Quiet.bind (x := g.getAggregator c is o) ((quiet_copy a c).bind
          ((Quiet.perform (o := .options) rfl).bind .done)) ?_
        cases g.getAggregator c is o with
        | ok l => exact .done
        | error e => rfl
  | substitute => exact hm.elim
  | replaceVar => exact hm.elim
  | removeStreamingInputs => exact hm.elim
  | removeStreamingOutputs => exact hm.elim

/-! ### Every method alone -/

theorem alone_substituteOne (a : Nat) (c : CommandInvocationWithIOVars) (pred : AccessKind → Bool) (new : List IOVar)
    (x : Py CommandInvocationWithIOVars)
    (hx : x = (do
      let r ← PashAnn.flatMapAnythingNonNames (PashAnn.substituteFun pred) (c.accessMap, new) c
      pyAssert (decide (r.2.2.length = 0))
      .ok { r.1 with accessMap := r.2.1 })) :
    match (generalizing := false) x with
    | .ok r => runOn (substituteOne a pred new) c = (.ok (), r)
    | .error e => ∃ c', runOn (substituteOne a pred new) c = (.error e, c') := by
  subst hx
  have h := sim_flatMap (sim_substitute a pred) a c new
  unfold substituteOne
  rw [runOn_bind]
  cases hr : PashAnn.flatMapAnythingNonNames (PashAnn.substituteFun pred) (c.accessMap, new) c with
  | error e => rw [hr] at h; obtain ⟨c', h⟩ := h; exact ⟨c', by rw [h]⟩
  | ok r =>
      rw [hr] at h
      obtain ⟨m, s, h1, h2⟩ := h
      rw [h2, py_ok_bind, h1]
      by_cases hs : s.length = 0
      · simp only [hs, decide_true, pyAssert, if_true, py_ok_bind]; rfl
      · simp only [hs, decide_false, pyAssert, if_false]
        exact ⟨_, rfl⟩

theorem alone_unit {g : VarFun AccessMap} {f : VarProg Unit} (h : Simulates (fun m _ => m) f g) (a : Nat)
    (c : CommandInvocationWithIOVars) (x : Py CommandInvocationWithIOVars)
    (hx : x = (do
      let r ← PashAnn.flatMapAnythingNonNames g c.accessMap c
      .ok { r.1 with accessMap := r.2 })) :
    match (generalizing := false) x with
    | .ok r => runOn (flatMapAnythingNonNames a f ()) c = (.ok (), r)
    | .error e => ∃ c', runOn (flatMapAnythingNonNames a f ()) c = (.error e, c') := by
  subst hx
  have h := sim_flatMap h a c ()
  cases hr : PashAnn.flatMapAnythingNonNames g c.accessMap c with
  | error e => rw [hr] at h; exact h
  | ok r =>
      rw [hr] at h
      obtain ⟨m, s, h1, h2⟩ := h
      rw [py_ok_bind, h1]
      exact h2

theorem method_alone (a : Nat) (c : CommandInvocationWithIOVars) (m : Method) :
    match m.effect c with
    | .ok r => runOn (m.prog a) c = (.ok r.1, r.2)
    | .error e => ∃ c', runOn (m.prog a) c = (.error e, c') := by
  have asks : m.Asks → match m.effect c with
      | .ok r => runOn (m.prog a) c = (.ok r.1, r.2)
      | .error e => ∃ c', runOn (m.prog a) c = (.error e, c') := by
    intro hm
    obtain ⟨r, h1, h2⟩ := quiet_method a c m hm
    rw [h1, h2.runOn]
    cases r with
    | ok x => rfl
    | error e => exact ⟨c, rfl⟩
  have wrap : ∀ (p : Prog Unit) (x : Py CommandInvocationWithIOVars),
      (match (generalizing := false) x with
        | .ok r => runOn p c = (.ok (), r)
        | .error e => ∃ c', runOn p c = (.error e, c')) →
      match (x >>= fun r => pure (Answer.nothing, r) : Py (Answer × CommandInvocationWithIOVars)) with
      | .ok r => runOn (do p; pure Answer.nothing) c = (.ok r.1, r.2)
      | .error e => ∃ c', runOn (do p; pure Answer.nothing) c = (.error e, c') := by
    intro p x h
    cases x with
    | ok r => show runOn _ c = (.ok Answer.nothing, r); rw [runOn_bind, h]; rfl
    | error e => obtain ⟨c', h⟩ := h; exact ⟨c', by rw [runOn_bind, h]⟩
  cases m with
  | generateInputs => exact asks trivial
  | generateOutputs => exact asks trivial
  | hasOtherOutputs => exact asks trivial
  | getMapper => exact asks trivial
  | getAggregator => exact asks trivial
  | substitute is os =>
      refine wrap (substitute a is os) (c.substitute is os) ?_
      have h1 := alone_substituteOne a c AccessKind.isStreamInput is (c.substituteInputs is) rfl
      unfold CommandInvocationWithIOVars.substitute substitute
      rw [runOn_bind]
      cases hr : c.substituteInputs is with
      | error e => rw [hr] at h1; obtain ⟨c', h1⟩ := h1; exact ⟨c', by rw [h1]⟩
      | ok r =>
          rw [hr] at h1
          rw [h1, py_ok_bind]
          exact alone_substituteOne a r AccessKind.isStreamOutput os (r.substituteOutputs os) rfl
  | replaceVar v y => exact wrap (replaceVar a v y) (c.replaceVar v y) (alone_unit (sim_replace a v y) a c _ rfl)
  | removeStreamingInputs => exact wrap (removeStreamingInputs a) c.removeStreamingInputs (alone_unit (sim_remove a _) a c _ rfl)
  | removeStreamingOutputs => exact wrap (removeStreamingOutputs a) c.removeStreamingOutputs (alone_unit (sim_remove a _) a c _ rfl)

/-! ### Taking turns -/

/-- From the world `w`, nobody disturbing, the computation uses only invocations in `U` and changes only those in `O`. -/
inductive Tame (U O : Nat → Prop) {α : Type} : Prog α → World → Prop
  | done {r w} : Tame U O (.done r) w
  | step {a o k w} : U a → (¬ O a → (o.run (w a)).2 = w a) → Tame U O (k (o.run (w a)).1) (w.set a (o.run (w a)).2) →
      Tame U O (.step a o k) w

theorem Tame.bind {U O : Nat → Prop} {α β : Type} {p : Prog α} {f : α → Prog β} {w : World} (hp : Tame U O p w)
    (hf : ∀ x w', Tame U O (f x) w') : Tame U O (p >>= f) w := by
  show Tame U O (p.bind f) w
  induction hp with
  | @done r w =>
      cases r with
      | ok x => exact hf x w
      | error e => exact .done
  | step h1 h2 _ ih => exact .step h1 h2 ih

theorem Tame.mono {U O U' O' : Nat → Prop} {α : Type} {p : Prog α} {w : World} (hU : ∀ a, U a → U' a) (hO : ∀ a, O a → O' a)
    (hp : Tame U O p w) : Tame U' O' p w := by
  induction hp with
  | done => exact .done
  | step h1 h2 _ ih => exact .step (hU _ h1) (fun h => h2 fun h' => h (hO _ h')) ih

theorem tame_only {U O : Nat → Prop} {a : Nat} (hU : U a) (hO : O a) {α : Type} {p : Prog α} (hp : Only a p) (w : World) :
    Tame U O p w := by
  induction hp generalizing w with
  | done => exact .done
  | step _ ih => exact .step hU (fun h => absurd hO h) (ih _ _)

theorem tame_quiet {U O : Nat → Prop} {a : Nat} (hU : U a) {α : Type} {p : Prog α} {w : World} {r : Py α}
    (hp : Quiet a (w a) p r) : Tame U O p w := by
  generalize hc : w a = c at hp
  induction hp with
  | done => exact .done
  | step h1 _ ih =>
      subst hc
      refine .step hU (fun _ => h1) ?_
      rw [h1, set_self]
      exact ih

/-- The invocations that a thread uses. -/
def Uses (t : List MethodCall) (a : Nat) : Prop := ∃ m ∈ t, m.self = a

/-- The invocations that a thread may change. -/
def Changes (t : List MethodCall) (a : Nat) : Prop := ∃ m ∈ t, m.self = a ∧ ¬ m.method.Asks

theorem tame_thread (t : List MethodCall) : ∀ w : World, Tame (Uses t) (Changes t) (threadOf t) w := by
  induction t with
  | nil => intro w; exact .done
  | cons m t ih =>
      intro w
      refine Tame.bind ?_ fun r w' => ?_
      · have hU : Uses (m :: t) m.self := ⟨m, List.mem_cons_self .., rfl⟩
        by_cases hm : m.method.Asks
        · obtain ⟨r, _, h⟩ := quiet_method m.self (w m.self) m.method hm
          exact tame_quiet hU h.attempt
        · exact tame_only hU ⟨m, List.mem_cons_self .., rfl, hm⟩ (only_method _ _).attempt w
      · refine Tame.bind ((ih w').mono ?_ ?_) fun _ _ => .done
        · rintro a ⟨n, h1, h2⟩; exact ⟨n, List.mem_cons_of_mem _ h1, h2⟩
        · rintro a ⟨n, h1, h2⟩; exact ⟨n, List.mem_cons_of_mem _ h1, h2⟩

/-- What is kept during the turns: every thread has come as far as it would have come alone in its own world `v`, and the
invocations it uses are as in that world. -/
def Kept (w₀ : World) (calls : List (List MethodCall)) (w : World) (ts : List (Prog (List (Py Answer)))) : Prop :=
  ts.length = calls.length ∧
  (∀ (i : Nat) p t, ts[i]? = some p → calls[i]? = some t → ∃ v : World, (∀ a, Uses t a → w a = v a) ∧
    Tame (Uses t) (Changes t) p v ∧ undisturbed p v = undisturbed (threadOf t) w₀) ∧
  ∀ a, (∀ t ∈ calls, ¬ Changes t a) → w a = w₀ a

theorem kept_start (w : World) (calls : List (List MethodCall)) : Kept w calls w (calls.map threadOf) := by
  refine ⟨by simp, ?_, fun _ _ => rfl⟩
  intro i p t hp ht
  rw [List.getElem?_map, ht] at hp
  obtain rfl := Option.some.inj hp
  exact ⟨w, fun _ _ => rfl, tame_thread t w, rfl⟩

theorem kept_turn {w₀ : World} {calls : List (List MethodCall)} (ha : KeepApart calls)
    {s s' : World × List (Prog (List (Py Answer)))} (h : Kept w₀ calls s.1 s.2) (hs : Turn s s') : Kept w₀ calls s'.1 s'.2 := by
  cases hs with
  | @turn w ts i a o k hi =>
    obtain ⟨h1, h2, h3⟩ := h
    simp only at h1 h2 h3
    obtain ⟨hlt, _⟩ := List.getElem?_eq_some_iff.mp hi
    have hlt' : i < calls.length := h1 ▸ hlt
    have hci : calls[i]? = some calls[i] := List.getElem?_eq_getElem hlt'
    obtain ⟨v, e1, e2, e3⟩ := h2 i _ _ hi hci
    cases e2 with
    | step u1 u2 u3 =>
      have ewa := e1 a u1
      refine ⟨by simp [h1], ?_, ?_⟩
      · intro j p t hp ht
        by_cases hij : i = j
        · subst hij
          simp only at hp
          rw [List.getElem?_set_self hlt] at hp
          obtain rfl := Option.some.inj hp
          rw [hci] at ht
          obtain rfl := Option.some.inj ht
          refine ⟨v.set a (o.run (v a)).2, ?_, ?_, ?_⟩
          · intro b hb
            simp only
            rw [ewa]
            by_cases hba : b = a
            · rw [hba, set_same, set_same]
            · rw [set_other _ _ hba, set_other _ _ hba, e1 b hb]
          · rw [ewa]; exact u3
          · rw [ewa, ← e3]; rfl
        · simp only at hp
          rw [List.getElem?_set_ne hij] at hp
          obtain ⟨v', f1, f2, f3⟩ := h2 j p t hp ht
          refine ⟨v', ?_, f2, f3⟩
          intro b hb
          simp only
          by_cases hba : b = a
          · subst hba
            obtain ⟨m, hm, rfl⟩ := u1
            obtain ⟨n, hn, hnm⟩ := hb
            have nochange : ¬ Changes calls[i] m.self := by
              rintro ⟨m', hm', em', hask⟩
              exact hask (ha i j _ _ hci ht hij m' hm' n hn (em'.trans hnm.symm)).1
            rw [set_same, ewa, u2 nochange, ← ewa]
            exact f1 _ ⟨n, hn, hnm⟩
          · rw [set_other _ _ hba]; exact f1 b hb
      · intro b hb
        simp only
        by_cases hba : b = a
        · subst hba
          rw [set_same, ewa, u2 (hb _ (List.getElem_mem hlt')), ← ewa]
          exact h3 b hb
        · rw [set_other _ _ hba]; exact h3 b hb

theorem kept_turns {w₀ : World} {calls : List (List MethodCall)} (ha : KeepApart calls)
    {s s' : World × List (Prog (List (Py Answer)))} (h : Kept w₀ calls s.1 s.2) (hs : Turns s s') : Kept w₀ calls s'.1 s'.2 := by
  induction hs with
  | refl => exact h
  | step h1 _ ih => exact ih (kept_turn ha h h1)

/-! ### The turns come to an end -/

/-- One step of one of the threads, whatever the access gives. -/
inductive Child {α : Type} : List (Prog α) → List (Prog α) → Prop
  | here {a o k r ps} : Child (k r :: ps) (.step a o k :: ps)
  | there {p ps qs} : Child qs ps → Child (p :: qs) (p :: ps)

theorem child_acc_nil {α : Type} : Acc (Child (α := α)) [] := ⟨_, fun _ h => nomatch h⟩

theorem child_acc_cons {α : Type} (p : Prog α) : ∀ ps, Acc (Child (α := α)) ps → Acc Child (p :: ps) := by
  induction p with
  | done r =>
      intro ps h
      induction h with
      | intro ps _ ih =>
          refine ⟨_, fun q hq => ?_⟩
          cases hq with
          | there h => exact ih _ h
  | step a o k ihp =>
      intro ps h
      induction h with
      | intro ps h ih =>
          refine ⟨_, fun q hq => ?_⟩
          cases hq with
          | here => exact ihp _ ps ⟨_, h⟩
          | there h' => exact ih _ h'

theorem child_acc {α : Type} : ∀ ps : List (Prog α), Acc Child ps
  | [] => child_acc_nil
  | p :: ps => child_acc_cons p ps (child_acc ps)

theorem child_set {α : Type} {a : Nat} {o : Op} {k : Py o.Result → Prog α} (r : Py o.Result) :
    ∀ (ts : List (Prog α)) (i : Nat), ts[i]? = some (.step a o k) → Child (ts.set i (k r)) ts
  | [], i, h => by simp at h
  | p :: ts, 0, h => by
      simp only [List.getElem?_cons_zero] at h
      obtain rfl := Option.some.inj h
      exact .here
  | p :: ts, i + 1, h => by
      simp only [List.getElem?_cons_succ] at h
      exact .there (child_set r ts i h)

theorem turn_child {α : Type} {s t : World × List (Prog α)} (h : Turn s t) : Child t.2 s.2 := by
  cases h with
  | turn i hi => exact child_set _ _ _ hi

end PashAnn.Threads
