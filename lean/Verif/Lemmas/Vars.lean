import Verif.Spec.Vars
import Verif.Lemmas.Par

/-! Lemmas about the traversal of invocations with variables. -/

namespace PashAnn
open Spec

/-! Shape and occurrences determine an invocation. -/

def sameOpt (x y : FlagOptionWithIOVar) : Prop := renameOption (fun _ => 0) x = renameOption (fun _ => 0) y
def sameArg (x y : VArg) : Prop := renameArg (fun _ => 0) x = renameArg (fun _ => 0) y

theorem args_ext {l l' : List VArg} (h : l.map (renameArg (fun _ => 0)) = l'.map (renameArg (fun _ => 0)))
    {t t' : List IOVar} (ho : l.flatMap varOf ++ t = l'.flatMap varOf ++ t') : l = l' ∧ t = t' := by
  induction l generalizing l' with
  | nil =>
      cases l' with
      | nil => exact ⟨rfl, ho⟩
      | cons => simp at h
  | cons x l ih =>
      cases l' with
      | nil => simp at h
      | cons y l' =>
          simp only [List.map_cons, List.cons.injEq] at h
          obtain ⟨hxy, h⟩ := h
          cases x <;> cases y <;> simp [renameArg] at hxy <;> simp [varOf] at ho ⊢
          · obtain ⟨rfl, ho'⟩ := ho; simpa using ih h ho'
          · subst hxy; simpa using ih h ho
          · subst hxy; simpa using ih h ho

theorem opts_ext {l l' : List FlagOptionWithIOVar}
    (h : l.map (renameOption (fun _ => 0)) = l'.map (renameOption (fun _ => 0)))
    {t t' : List IOVar} (ho : l.flatMap optionVar ++ t = l'.flatMap optionVar ++ t') : l = l' ∧ t = t' := by
  induction l generalizing l' with
  | nil =>
      cases l' with
      | nil => exact ⟨rfl, ho⟩
      | cons => simp at h
  | cons x l ih =>
      cases l' with
      | nil => simp at h
      | cons y l' =>
          simp only [List.map_cons, List.cons.injEq] at h
          obtain ⟨hxy, h⟩ := h
          rcases x with _ | _ | ⟨n, a⟩ <;> rcases y with _ | _ | ⟨m, b⟩ <;> simp [renameOption] at hxy
          · subst hxy; simp [optionVar] at ho ⊢; exact ih h ho
          · obtain ⟨rfl, rfl, rfl⟩ := hxy; simp [optionVar] at ho ⊢; exact ih h ho
          · obtain ⟨rfl, hab⟩ := hxy
            cases a <;> cases b <;> simp [renameArg] at hab <;> simp [optionVar, varOf] at ho ⊢
            · obtain ⟨rfl, ho⟩ := ho; simpa using ih h ho
            · subst hab; simpa using ih h ho
            · subst hab; simpa using ih h ho

theorem opt_ext {o o' : Option IOVar} (h : o.map (fun _ => (0 : IOVar)) = o'.map (fun _ => 0))
    {t t' : List IOVar} (ho : o.toList ++ t = o'.toList ++ t') : o = o' ∧ t = t' := by
  cases o <;> cases o' <;> simp_all

/-- Shape and occurrences determine an invocation up to the access map. -/
theorem shape_ext {c c' : CommandInvocationWithIOVars} (h : SameShape c c') (ho : occurrences c = occurrences c') :
    { c with accessMap := [] } = { c' with accessMap := [] } := by
  obtain ⟨n, f, o, i, u, m⟩ := c
  obtain ⟨n', f', o', i', u', m'⟩ := c'
  simp only [SameShape, rename, CommandInvocationWithIOVars.mk.injEq, and_true] at h
  obtain ⟨rfl, hf, hops, hi, hu⟩ := h
  simp only [occurrences, List.append_assoc] at ho
  obtain ⟨rfl, ho1⟩ := opts_ext hf ho
  obtain ⟨rfl, ho2⟩ := args_ext hops ho1
  obtain ⟨rfl, ho3⟩ := opt_ext hi ho2
  obtain ⟨rfl, _⟩ := opt_ext (t := []) (t' := []) hu (by simpa using ho3)
  rfl

theorem SameShape.refl (c : CommandInvocationWithIOVars) : SameShape c c := rfl
theorem SameShape.symm {c c' : CommandInvocationWithIOVars} (h : SameShape c c') : SameShape c' c := Eq.symm h
theorem SameShape.trans {c c' c'' : CommandInvocationWithIOVars} (h : SameShape c c') (h' : SameShape c' c'') :
    SameShape c c'' := Eq.trans h h'

theorem renameArg_comp (f g : IOVar → IOVar) (x : VArg) : renameArg f (renameArg g x) = renameArg (f ∘ g) x := by
  cases x <;> rfl

theorem renameOption_comp (f g : IOVar → IOVar) (x : FlagOptionWithIOVar) :
    renameOption f (renameOption g x) = renameOption (f ∘ g) x := by
  cases x <;> simp [renameOption, renameArg_comp]

theorem rename_shape (f : IOVar → IOVar) (c : CommandInvocationWithIOVars) : SameShape c (rename f c) := by
  simp only [SameShape, rename, List.map_map, Option.map_map]
  congr 1
  · apply List.map_congr_left; intro x _; simp [renameOption_comp, Function.comp_def]
  · apply List.map_congr_left; intro x _; simp [renameArg_comp, Function.comp_def]

theorem varOf_rename (f : IOVar → IOVar) (x : VArg) : varOf (renameArg f x) = (varOf x).map f := by cases x <;> rfl

theorem optionVar_rename (f : IOVar → IOVar) (x : FlagOptionWithIOVar) :
    optionVar (renameOption f x) = (optionVar x).map f := by
  cases x <;> simp [renameOption, optionVar, varOf_rename]

theorem occurrences_rename (f : IOVar → IOVar) (c : CommandInvocationWithIOVars) :
    occurrences (rename f c) = (occurrences c).map f := by
  have h1 : (c.flagOptionList.map (renameOption f)).flatMap optionVar = (c.flagOptionList.flatMap optionVar).map f := by
    rw [List.flatMap_map, List.map_flatMap]; simp [optionVar_rename]
  have h2 : (c.operandList.map (renameArg f)).flatMap varOf = (c.operandList.flatMap varOf).map f := by
    rw [List.flatMap_map, List.map_flatMap]; simp [varOf_rename]
  simp only [occurrences, rename, h1, h2, List.map_append]
  cases c.implicitInput <;> cases c.implicitOutput <;> simp

/-- An invocation of the same shape whose occurrences are the renamed ones is the renaming. -/
theorem eq_rename {c c' : CommandInvocationWithIOVars} {f : IOVar → IOVar} (h : SameShape c c')
    (ho : occurrences c' = (occurrences c).map f) : c' = { rename f c with accessMap := c'.accessMap } := by
  have := shape_ext (h.symm.trans (rename_shape f c)) (ho.trans (occurrences_rename f c).symm)
  obtain ⟨n', f', o', i', u', m'⟩ := c'
  simp only [rename, CommandInvocationWithIOVars.mk.injEq, and_true] at this ⊢
  exact this

theorem hiddenVars_shape {c c' : CommandInvocationWithIOVars} (h : SameShape c c') : hiddenVars c' = hiddenVars c := by
  have key : ∀ l : List FlagOptionWithIOVar,
      (l.map (renameOption (fun _ => 0))).flatMap hiddenVar = l.flatMap hiddenVar := by
    intro l
    rw [List.flatMap_map]
    congr 1
    funext x
    cases x <;> rfl
  simp only [SameShape, rename, CommandInvocationWithIOVars.mk.injEq] at h
  unfold hiddenVars
  rw [← key, ← key c.flagOptionList, h.2.1]

/-! Functions that replace each variable by one variable. -/

/-- `g` as a function for the traversal. -/
def single {σ : Type} (g : σ → IOVar → Py (IOVar × σ)) : VarFun σ := fun s v => do
  let r ← g s v
  .ok ([r.1], r.2)

/-- Apply `g` along a list of variables. -/
def run {σ : Type} (g : σ → IOVar → Py (IOVar × σ)) : σ → List IOVar → Py (List IOVar × σ)
  | s, [] => .ok ([], s)
  | s, v :: vs => do
      let r ← g s v
      let r' ← run g r.2 vs
      .ok (r.1 :: r'.1, r'.2)

theorem run_append {σ : Type} (g : σ → IOVar → Py (IOVar × σ)) (s : σ) (a b : List IOVar) :
    run g s (a ++ b) = (do
      let r ← run g s a
      let r' ← run g r.2 b
      .ok (r.1 ++ r'.1, r'.2)) := by
  induction a generalizing s with
  | nil =>
      simp only [List.nil_append, run, bind, Except.bind]
      cases run g s b <;> rfl
  | cons v a ih =>
      simp only [List.cons_append, run, bind, Except.bind]
      cases g s v with
      | error => rfl
      | ok r =>
          simp only [ih, bind, Except.bind]
          cases run g r.2 a with
          | error => rfl
          | ok r1 =>
              simp only
              cases run g r1.2 b <;> rfl

/-- What a traversal of a component with `single g` is, compared with `run g` on its variables. -/
def Follows {σ β : Type} (vars : β → List IOVar) (same : β → β → Prop) (x : β) (r : Py (List IOVar × σ))
    (t : Py (β × σ)) : Prop :=
  match r with
  | .error e => t = .error e
  | .ok (new, s) => ∃ y, t = .ok (y, s) ∧ vars y = new ∧ same x y

theorem follows_flags {σ : Type} (g : σ → IOVar → Py (IOVar × σ)) (s : σ) (l : List FlagOptionWithIOVar) :
    Follows (fun l => l.flatMap optionVar) (fun a b => a.map (renameOption (fun _ => 0)) = b.map (renameOption (fun _ => 0)))
      l (run g s (l.flatMap optionVar)) (flatMapFlagOptionList (single g) s l) := by
  induction l generalizing s with
  | nil => exact ⟨[], rfl, rfl, rfl⟩
  | cons x l ih =>
      have skip : optionVar x = [] → (∀ s, flatMapFlagOptionList (single g) s (x :: l) = (do
          let r' ← flatMapFlagOptionList (single g) s l
          .ok (x :: r'.1, r'.2))) →
          Follows (fun l => l.flatMap optionVar)
            (fun a b => a.map (renameOption (fun _ => 0)) = b.map (renameOption (fun _ => 0)))
            (x :: l) (run g s ((x :: l).flatMap optionVar)) (flatMapFlagOptionList (single g) s (x :: l)) := by
        intro hx hstep
        have := ih s
        rw [hstep, List.flatMap_cons, hx, List.nil_append]
        unfold Follows at this ⊢
        cases hr : run g s (l.flatMap optionVar) with
        | error e => rw [hr] at this; simp only at this ⊢; rw [this]; rfl
        | ok r =>
            rw [hr] at this
            obtain ⟨y, h1, h2, h3⟩ := this
            exact ⟨x :: y, by rw [h1]; rfl, by simp [hx]; exact h2, by simp [h3]⟩
      match x with
      | .flag n => exact skip rfl (fun _ => rfl)
      | .optionVar o n a => exact skip rfl (fun _ => rfl)
      | .optionIO n (.str a) => exact skip rfl (fun _ => rfl)
      | .optionIO n (.io a) => exact skip rfl (fun _ => rfl)
      | .optionIO n (.var v) =>
          simp only [List.flatMap_cons, optionVar, varOf, List.cons_append, List.nil_append, run,
            flatMapFlagOptionList, single, bind, Except.bind]
          cases hg : g s v with
          | error e => rfl
          | ok r =>
              simp only
              have := ih r.2
              unfold Follows at this
              cases hr : run g r.2 (l.flatMap optionVar) with
              | error e => rw [hr] at this; unfold Follows; simp only at this ⊢; rw [this]
              | ok r' =>
                  rw [hr] at this
                  obtain ⟨y, h1, h2, h3⟩ := this
                  exact ⟨.optionIO n (.var r.1) :: y, by rw [h1], by simp [optionVar, varOf]; exact h2,
                    by simp [h3, renameOption, renameArg]⟩

theorem follows_operands {σ : Type} (g : σ → IOVar → Py (IOVar × σ)) (s : σ) (l : List VArg) :
    Follows (fun l => l.flatMap varOf) (fun a b => a.map (renameArg (fun _ => 0)) = b.map (renameArg (fun _ => 0)))
      l (run g s (l.flatMap varOf)) (flatMapOperandList (single g) s l) := by
  induction l generalizing s with
  | nil => exact ⟨[], rfl, rfl, rfl⟩
  | cons x l ih =>
      have skip : varOf x = [] → (∀ s, flatMapOperandList (single g) s (x :: l) = (do
          let r' ← flatMapOperandList (single g) s l
          .ok (x :: r'.1, r'.2))) →
          Follows (fun l => l.flatMap varOf)
            (fun a b => a.map (renameArg (fun _ => 0)) = b.map (renameArg (fun _ => 0)))
            (x :: l) (run g s ((x :: l).flatMap varOf)) (flatMapOperandList (single g) s (x :: l)) := by
        intro hx hstep
        have := ih s
        rw [hstep, List.flatMap_cons, hx, List.nil_append]
        unfold Follows at this ⊢
        cases hr : run g s (l.flatMap varOf) with
        | error e => rw [hr] at this; simp only at this ⊢; rw [this]; rfl
        | ok r =>
            rw [hr] at this
            obtain ⟨y, h1, h2, h3⟩ := this
            exact ⟨x :: y, by rw [h1]; rfl, by simp [hx]; exact h2, by simp [h3]⟩
      match x with
      | .str a => exact skip rfl (fun _ => rfl)
      | .io a => exact skip rfl (fun _ => rfl)
      | .var v =>
          simp only [List.flatMap_cons, varOf, List.cons_append, List.nil_append, run,
            flatMapOperandList, single, bind, Except.bind]
          cases hg : g s v with
          | error e => rfl
          | ok r =>
              simp only
              have := ih r.2
              unfold Follows at this
              cases hr : run g r.2 (l.flatMap varOf) with
              | error e => rw [hr] at this; unfold Follows; simp only at this ⊢; rw [this]
              | ok r' =>
                  rw [hr] at this
                  obtain ⟨y, h1, h2, h3⟩ := this
                  exact ⟨.var r.1 :: y, by rw [h1]; rfl, by simp [varOf]; exact h2, by simp [h3, renameArg]⟩

theorem follows_implicit {σ : Type} (g : σ → IOVar → Py (IOVar × σ)) (s : σ) (o : Option IOVar) :
    Follows Option.toList (fun a b => a.map (fun _ => (0 : IOVar)) = b.map (fun _ => 0))
      o (run g s o.toList) (flatMapImplicit (single g) s o) := by
  cases o with
  | none => exact ⟨none, rfl, rfl, rfl⟩
  | some v =>
      simp only [Option.toList, run, flatMapImplicit, single, bind, Except.bind]
      cases g s v with
      | error e => rfl
      | ok r => exact ⟨some r.1, rfl, rfl, rfl⟩

/-- The traversal with `single g` applies `g` along the occurrences and keeps the shape. -/
theorem traverse_single {σ : Type} (g : σ → IOVar → Py (IOVar × σ)) (s : σ) (c : CommandInvocationWithIOVars) :
    Follows occurrences (fun a b => SameShape a b ∧ b.accessMap = a.accessMap) c (run g s (occurrences c))
      (flatMapAnythingNonNames (single g) s c) := by
  unfold occurrences flatMapAnythingNonNames
  rw [run_append, run_append, run_append]
  have h1 := follows_flags g s c.flagOptionList
  simp only [bind, Except.bind]
  unfold Follows at h1
  cases hr1 : run g s (c.flagOptionList.flatMap optionVar) with
  | error e => rw [hr1] at h1; simp only at h1 ⊢; rw [h1]; rfl
  | ok r1 =>
    rw [hr1] at h1
    obtain ⟨y1, e1, v1, k1⟩ := h1
    simp only [e1]
    have h2 := follows_operands g r1.2 c.operandList
    unfold Follows at h2
    cases hr2 : run g r1.2 (c.operandList.flatMap varOf) with
    | error e => rw [hr2] at h2; simp only at h2 ⊢; rw [h2]; rfl
    | ok r2 =>
      rw [hr2] at h2
      obtain ⟨y2, e2, v2, k2⟩ := h2
      simp only [e2]
      have h3 := follows_implicit g r2.2 c.implicitInput
      unfold Follows at h3
      cases hr3 : run g r2.2 c.implicitInput.toList with
      | error e => rw [hr3] at h3; simp only at h3 ⊢; rw [h3]; rfl
      | ok r3 =>
        rw [hr3] at h3
        obtain ⟨y3, e3, v3, k3⟩ := h3
        simp only [e3]
        have h4 := follows_implicit g r3.2 c.implicitOutput
        unfold Follows at h4
        cases hr4 : run g r3.2 c.implicitOutput.toList with
        | error e => rw [hr4] at h4; simp only at h4 ⊢; rw [h4]; rfl
        | ok r4 =>
          rw [hr4] at h4
          obtain ⟨y4, e4, v4, k4⟩ := h4
          simp only [e4]
          refine ⟨_, rfl, ?_, ?_, rfl⟩
          · simp only [v1, v2, v3, v4]
          · simp only [SameShape, rename, CommandInvocationWithIOVars.mk.injEq, and_true, true_and]
            exact ⟨k1, k2, k3, k4⟩

theorem traverse_ok {σ : Type} {g : σ → IOVar → Py (IOVar × σ)} {s s' : σ} {c : CommandInvocationWithIOVars}
    {new : List IOVar} (h : run g s (occurrences c) = .ok (new, s')) :
    ∃ c', flatMapAnythingNonNames (single g) s c = .ok (c', s') ∧ occurrences c' = new ∧ SameShape c c' ∧
      c'.accessMap = c.accessMap := by
  have := traverse_single g s c
  rw [h] at this; exact this

theorem traverse_error {σ : Type} {g : σ → IOVar → Py (IOVar × σ)} {s : σ} {c : CommandInvocationWithIOVars}
    {e : PyErr} (h : run g s (occurrences c) = .error e) : flatMapAnythingNonNames (single g) s c = .error e := by
  have := traverse_single g s c
  rw [h] at this; exact this

end PashAnn
