import Verif.Lemmas.VarRun

/-! The methods on invocations with variables, in terms of occurrences and access kinds. -/

namespace PashAnn
open Spec

theorem replaceInOrder_length (p : IOVar → Prop) [DecidablePred p] (old new : List IOVar) :
    (replaceInOrder p old new).length = old.length := by
  induction old generalizing new with
  | nil => rfl
  | cons v old ih =>
      unfold replaceInOrder
      split
      · cases new <;> simp [ih]
      · simp [ih]

theorem mem_replaceInOrder (p : IOVar → Prop) [DecidablePred p] (old new : List IOVar)
    (hl : new.length = (old.filter p).length) (w : IOVar) :
    w ∈ replaceInOrder p old new ↔ w ∈ new ∨ (w ∈ old ∧ ¬ p w) := by
  induction old generalizing new with
  | nil => cases new with
      | nil => simp [replaceInOrder]
      | cons => simp at hl
  | cons v old ih =>
      by_cases hv : p v
      · cases new with
        | nil => simp [hv] at hl
        | cons n new =>
            simp only [replaceInOrder, hv, if_true, List.mem_cons]
            rw [ih new (by simpa [hv] using hl)]
            constructor
            · rintro (h | h | h)
              · exact .inl (.inl h)
              · exact .inl (.inr h)
              · exact .inr ⟨.inr h.1, h.2⟩
            · rintro ((h | h) | ⟨h | h, h'⟩)
              · exact .inl h
              · exact .inr (.inl h)
              · exact absurd (h ▸ hv) h'
              · exact .inr (.inr ⟨h, h'⟩)
      · simp only [replaceInOrder, hv, if_false, List.mem_cons]
        rw [ih new (by simpa [hv] using hl)]
        constructor
        · rintro (h | h | h)
          · exact .inr ⟨.inl h, h ▸ hv⟩
          · exact .inl h
          · exact .inr ⟨.inr h.1, h.2⟩
        · rintro (h | ⟨h | h, h'⟩)
          · exact .inr (.inl h)
          · exact .inl h
          · exact .inr (.inr ⟨h, h'⟩)

/-- Any function that gives a new variable what `g` gave the replaced ones agrees along the list. -/
theorem replaceInOrder_map {β : Type} (p : IOVar → Prop) [DecidablePred p] (old new : List IOVar) (f g : IOVar → β)
    (b : β) (hp : ∀ v ∈ old, p v → g v = b) (hn : ∀ v ∈ new, f v = b) (ho : ∀ v ∈ old, ¬ p v → f v = g v)
    (hl : new.length = (old.filter p).length) :
    (replaceInOrder p old new).map f = old.map g := by
  induction old generalizing new with
  | nil => rfl
  | cons v old ih =>
      have ih := fun new h1 h2 => ih new (fun w hw => hp w (by simp [hw])) h1 (fun w hw => ho w (by simp [hw])) h2
      by_cases hv : p v
      · cases new with
        | nil => simp [hv] at hl
        | cons n new =>
            simp only [replaceInOrder, hv, if_true, List.map_cons]
            rw [ih new (fun w hw => hn w (by simp [hw])) (by simpa [hv] using hl), hn n (by simp), hp v (by simp) hv]
      · simp only [replaceInOrder, hv, if_false, List.map_cons]
        rw [ih new hn (by simpa [hv] using hl), ho v (by simp) hv]

theorem replaceInOrder_filter (p q : IOVar → Prop) [DecidablePred p] [DecidablePred q] (old new : List IOVar)
    (hn : ∀ v ∈ new, q v) (ho : ∀ v ∈ old, ¬ p v → ¬ q v) (hl : new.length = (old.filter p).length) :
    (replaceInOrder p old new).filter q = new := by
  induction old generalizing new with
  | nil => cases new with
      | nil => rfl
      | cons => simp at hl
  | cons v old ih =>
      have ih := fun new h1 h2 => ih new h1 (fun w hw => ho w (by simp [hw])) h2
      by_cases hv : p v
      · cases new with
        | nil => simp [hv] at hl
        | cons n new =>
            simp only [replaceInOrder, hv, if_true, List.filter_cons, decide_eq_true (hn n (by simp))]
            rw [ih new (fun w hw => hn w (by simp [hw])) (by simpa [hv] using hl)]
      · simp only [replaceInOrder, hv, if_false, List.filter_cons, decide_eq_false (ho v (by simp) hv),
          Bool.false_eq_true]
        exact ih new hn (by simpa [hv] using hl)

/-- Elements that are not replaced keep their order. -/
theorem replaceInOrder_filter_other (p q : IOVar → Prop) [DecidablePred p] [DecidablePred q] (old new : List IOVar)
    (hn : ∀ v ∈ new, ¬ q v) (hp : ∀ v ∈ old, p v → ¬ q v) (hl : new.length = (old.filter p).length) :
    (replaceInOrder p old new).filter q = old.filter q := by
  induction old generalizing new with
  | nil => rfl
  | cons v old ih =>
      have ih := fun new h1 h2 => ih new h1 (fun w hw => hp w (by simp [hw])) h2
      by_cases hv : p v
      · cases new with
        | nil => simp [hv] at hl
        | cons n new =>
            simp only [replaceInOrder, hv, if_true, List.filter_cons, decide_eq_false (hn n (by simp)),
              decide_eq_false (hp v (by simp) hv), Bool.false_eq_true]
            exact ih new (fun w hw => hn w (by simp [hw])) (by simpa [hv] using hl)
      · simp only [replaceInOrder, hv, if_false, List.filter_cons]
        rw [ih new hn (by simpa [hv] using hl)]

theorem replaceInOrder_nodup (p : IOVar → Prop) [DecidablePred p] (old new : List IOVar) (hno : old.Nodup)
    (hnn : new.Nodup) (hd : ∀ n ∈ new, n ∉ old) (hl : new.length = (old.filter p).length) :
    (replaceInOrder p old new).Nodup := by
  induction old generalizing new with
  | nil => simp [replaceInOrder]
  | cons v old ih =>
      obtain ⟨hv1, hv2⟩ := List.nodup_cons.1 hno
      by_cases hv : p v
      · cases new with
        | nil => simp [hv] at hl
        | cons n new =>
            obtain ⟨hn1, hn2⟩ := List.nodup_cons.1 hnn
            have hl' : new.length = (old.filter p).length := by simpa [hv] using hl
            simp only [replaceInOrder, hv, if_true, List.nodup_cons]
            refine ⟨?_, ih new hv2 hn2 (fun x hx h => hd x (by simp [hx]) (by simp [h])) hl'⟩
            rw [mem_replaceInOrder p old new hl']
            rintro (h | h)
            · exact hn1 h
            · exact hd n (by simp) (by simp [h.1])
      · have hl' : new.length = (old.filter p).length := by simpa [hv] using hl
        simp only [replaceInOrder, hv, if_false, List.nodup_cons]
        refine ⟨?_, ih new hv2 hnn (fun x hx h => hd x hx (by simp [h])) hl'⟩
        rw [mem_replaceInOrder p old new hl']
        rintro (h | h)
        · exact hd v h (by simp)
        · exact hv1 h.1

/-- Replacing a single element is a renaming. -/
theorem replaceInOrder_one (p : IOVar → Prop) [DecidablePred p] (old : List IOVar) (v n : IOVar)
    (h : old.filter p = [v]) : replaceInOrder p old [n] = old.map (fun w => if p w then n else w) := by
  induction old with
  | nil => simp at h
  | cons w old ih =>
      by_cases hw : p w
      · have hrest : old.filter p = [] := by
          simp only [List.filter_cons, decide_eq_true hw, if_true, List.cons.injEq] at h; exact h.2
        have : ∀ l : List IOVar, l.filter p = [] → replaceInOrder p l [] = l.map (fun w => if p w then n else w) := by
          intro l
          induction l with
          | nil => intro; rfl
          | cons x l ihl =>
              intro hx
              by_cases hpx : p x
              · simp [hpx] at hx
              · simp only [replaceInOrder, hpx, if_false, List.map_cons]
                rw [ihl (by simpa [hpx] using hx)]
        simp only [replaceInOrder, hw, if_true, List.map_cons, this old hrest]
      · simp only [replaceInOrder, hw, if_false, List.map_cons]
        rw [ih (by simpa [hw] using h)]

/-- The number of variables of an access kind among the occurrences. -/
def numWith (c : CommandInvocationWithIOVars) (a : AccessKind) : Nat := (withAccess c a).length

/-- One substitution, for inputs or outputs. -/
def substituteKind (a : AccessKind) (c : CommandInvocationWithIOVars) (ns : List IOVar) :
    Py CommandInvocationWithIOVars := do
  let r ← flatMapAnythingNonNames (single (gSub a)) (c.accessMap, ns) c
  pyAssert (decide (r.2.2.length = 0))
  .ok { r.1 with accessMap := r.2.1 }

theorem substituteInputs_eq (c : CommandInvocationWithIOVars) (ns : List IOVar) :
    c.substituteInputs ns = substituteKind .streamInput c ns := by
  unfold CommandInvocationWithIOVars.substituteInputs substituteKind
  rw [substituteFun_eq AccessKind.isStreamInput .streamInput (by intro b; cases b <;> rfl)]

theorem substituteOutputs_eq (c : CommandInvocationWithIOVars) (ns : List IOVar) :
    c.substituteOutputs ns = substituteKind .streamOutput c ns := by
  unfold CommandInvocationWithIOVars.substituteOutputs substituteKind
  rw [substituteFun_eq AccessKind.isStreamOutput .streamOutput (by intro b; cases b <;> rfl)]

theorem substituteKind_ok (a : AccessKind) (c : CommandInvocationWithIOVars) (ns : List IOVar) (hd : Described c)
    (hn : (occurrences c).Nodup) (hf : ∀ n ∈ ns, n ∉ occurrences c) (hl : ns.length = (withAccess c a).length) :
    ∃ c', substituteKind a c ns = .ok c' ∧ SameShape c c' ∧
      occurrences c' = replaceInOrder (fun v => accessOf c v = some a) (occurrences c) ns ∧
      ∀ v, accessOf c' v = if v ∈ ns then some a else if v ∈ withAccess c a then none else accessOf c v := by
  obtain ⟨m', hr, hm'⟩ := (gSub_run a (occurrences c) ns c.accessMap hn hd hf).1 (Nat.le_of_eq hl.symm)
  obtain ⟨c', h1, h2, h3, _⟩ := traverse_ok hr
  refine ⟨{ c' with accessMap := m' }, ?_, ?_, h2, ?_⟩
  · unfold substituteKind
    rw [h1]
    have : ns.drop ((occurrences c).filter (fun v => AccessMap.get? c.accessMap v = some a)).length = [] :=
      List.drop_eq_nil_of_le (Nat.le_of_eq hl)
    simp only [bind, Except.bind, this]
    rfl
  · exact h3
  · intro v
    have htake : ns.take ((occurrences c).filter (fun v => AccessMap.get? c.accessMap v = some a)).length = ns :=
      List.take_of_length_le (Nat.le_of_eq hl)
    have := hm' v
    rw [htake] at this
    simp only [withAccess, List.mem_filter, decide_eq_true_eq]
    exact this

theorem substituteKind_error (a : AccessKind) (c : CommandInvocationWithIOVars) (ns : List IOVar) (hd : Described c)
    (hn : (occurrences c).Nodup) (hf : ∀ n ∈ ns, n ∉ occurrences c) (hl : ns.length ≠ (withAccess c a).length) :
    substituteKind a c ns = .error (if ns.length < (withAccess c a).length then .indexError else .assertionError) := by
  have hrun := gSub_run a (occurrences c) ns c.accessMap hn hd hf
  by_cases hlt : ns.length < (withAccess c a).length
  · rw [if_pos hlt]
    unfold substituteKind
    rw [traverse_error (hrun.2 hlt)]
    rfl
  · rw [if_neg hlt]
    obtain ⟨m', hr, _⟩ := hrun.1 (Nat.le_of_not_lt hlt)
    obtain ⟨c', h1, _⟩ := traverse_ok hr
    unfold substituteKind
    rw [h1]
    have : ¬ (ns.drop ((occurrences c).filter (fun v => AccessMap.get? c.accessMap v = some a)).length).length = 0 := by
      rw [List.length_drop]
      have : ((occurrences c).filter (fun v => AccessMap.get? c.accessMap v = some a)).length ≤ ns.length :=
        Nat.le_of_not_lt hlt
      have hl' : ns.length ≠ ((occurrences c).filter (fun v => AccessMap.get? c.accessMap v = some a)).length := hl
      omega
    simp only [bind, Except.bind, pyAssert, decide_eq_false this, Bool.false_eq_true, if_false]

theorem collect_ok (pred : AccessKind → Bool) (c : CommandInvocationWithIOVars) (hd : Described c) :
    flatMapAnythingNonNames (collectFun pred c.accessMap) [] c =
      .ok (c, (occurrences c).filter (fun v => ((accessOf c v).map pred).getD false)) := by
  rw [collectFun_eq]
  obtain ⟨c', h1, h2, h3, h4⟩ := traverse_ok (gCollect_run pred c.accessMap (occurrences c) [] hd)
  have : c' = c := by
    have := shape_ext h3 h2.symm
    obtain ⟨n', f', o', i', u', m'⟩ := c'
    obtain ⟨n, f, o, i, u, m⟩ := c
    simp only [CommandInvocationWithIOVars.mk.injEq, and_true] at this h4 ⊢
    obtain ⟨a1, a2, a3, a4, a5⟩ := this
    exact ⟨a1.symm, a2.symm, a3.symm, a4.symm, a5.symm, h4⟩
  rw [h1, this]
  simp only [List.nil_append]
  rfl

theorem collect_error (pred : AccessKind → Bool) (c : CommandInvocationWithIOVars) (hd : ¬ Described c) :
    flatMapAnythingNonNames (collectFun pred c.accessMap) [] c = .error .keyError := by
  unfold Described at hd
  simp only [Classical.not_forall] at hd
  obtain ⟨v, hv, hg⟩ := hd
  rw [collectFun_eq]
  exact traverse_error (gCollect_run_missing pred c.accessMap (occurrences c) [] v hv (by
    simp only [ne_eq, Classical.not_not] at hg; exact hg))

/-! Removal. -/

theorem removeFlags_ok (a : AccessKind) (m : AccessMap) (pred : AccessKind → Bool)
    (hp : ∀ b, pred b = decide (b = a)) (l : List FlagOptionWithIOVar)
    (h : ∀ v ∈ l.flatMap optionVar, AccessMap.get? m v ≠ none ∧ AccessMap.get? m v ≠ some a) :
    flatMapFlagOptionList (removeFun pred) m l = .ok (l, m) := by
  induction l with
  | nil => rfl
  | cons x l ih =>
      have ih := ih (fun v hv => h v (by rw [List.flatMap_cons]; exact List.mem_append.2 (.inr hv)))
      match x, h with
      | .flag n, _ => simp [flatMapFlagOptionList, ih, bind, Except.bind]
      | .optionVar o n a, _ => simp [flatMapFlagOptionList, ih, bind, Except.bind]
      | .optionIO n (.str a), _ => simp [flatMapFlagOptionList, ih, bind, Except.bind]
      | .optionIO n (.io a), _ => simp [flatMapFlagOptionList, ih, bind, Except.bind]
      | .optionIO n (.var v), h =>
          have hv := h v (by simp [optionVar, varOf])
          cases hg : AccessMap.get? m v with
          | none => exact absurd hg hv.1
          | some b =>
              have hb : b ≠ a := fun he => hv.2 (by rw [hg, he])
              simp [flatMapFlagOptionList, ih, bind, Except.bind, removeFun, AccessMap.getItem, hg, hp, hb]

theorem varOf_var (v : IOVar) : varOf (.var v) = [v] := rfl

theorem removeOperands_ok (a : AccessKind) (pred : AccessKind → Bool) (hp : ∀ b, pred b = decide (b = a))
    (l : List VArg) (m : AccessMap) (h : ∀ v ∈ l.flatMap varOf, AccessMap.get? m v ≠ none)
    (hn : (l.flatMap varOf).Nodup) :
    ∃ m', flatMapOperandList (removeFun pred) m l =
        .ok (l.filter (fun x => ∀ v ∈ varOf x, AccessMap.get? m v ≠ some a), m') ∧
      ∀ v, AccessMap.get? m' v = if v ∈ l.flatMap varOf ∧ AccessMap.get? m v = some a then none
        else AccessMap.get? m v := by
  induction l generalizing m with
  | nil => exact ⟨m, rfl, fun v => by simp⟩
  | cons x l ih =>
      have skip : varOf x = [] → (∀ s, flatMapOperandList (removeFun pred) s (x :: l) = (do
          let r' ← flatMapOperandList (removeFun pred) s l
          .ok (x :: r'.1, r'.2))) → ∃ m', flatMapOperandList (removeFun pred) m (x :: l) =
          .ok ((x :: l).filter (fun x => ∀ v ∈ varOf x, AccessMap.get? m v ≠ some a), m') ∧
          ∀ v, AccessMap.get? m' v = if v ∈ (x :: l).flatMap varOf ∧ AccessMap.get? m v = some a then none
          else AccessMap.get? m v := by
        intro hx hstep
        obtain ⟨m', h1, h2⟩ := ih m (fun v hv => h v (by simp [hx]; simpa using hv)) (by simpa [hx] using hn)
        refine ⟨m', ?_, ?_⟩
        · rw [hstep, h1]
          simp only [bind, Except.bind, List.filter_cons, hx, List.not_mem_nil, false_implies, implies_true,
            decide_true, if_true]
        · intro v; rw [h2]; simp [hx]
      match x with
      | .str s => exact skip rfl (fun _ => rfl)
      | .io s => exact skip rfl (fun _ => rfl)
      | .var v =>
          simp only [List.flatMap_cons, varOf_var, List.cons_append, List.nil_append, List.nodup_cons] at hn
          have hl : ∀ w ∈ l.flatMap varOf, w ≠ v := fun w hw he => hn.1 (he ▸ hw)
          cases hg : AccessMap.get? m v with
          | none => exact absurd hg (h v (by simp [varOf_var]))
          | some b =>
              by_cases hb : b = a
              · subst hb
                have hpres : ∀ w ∈ l.flatMap varOf, AccessMap.get? (AccessMap.erase m v) w = AccessMap.get? m w := by
                  intro w hw; rw [get_erase, if_neg (hl w hw)]
                obtain ⟨m', h1, h2⟩ := ih (AccessMap.erase m v)
                  (fun w hw => by rw [hpres w hw]; exact h w (by simp [varOf_var]; right; simpa using hw)) hn.2
                refine ⟨m', ?_, ?_⟩
                · have hfil : l.filter (fun x => ∀ w ∈ varOf x, AccessMap.get? (AccessMap.erase m v) w ≠ some b) =
                      l.filter (fun x => ∀ w ∈ varOf x, AccessMap.get? m w ≠ some b) := by
                    apply List.filter_congr
                    intro y hy
                    congr 1
                    apply propext
                    constructor
                    · intro hh w hw
                      have := hpres w (List.mem_flatMap.2 ⟨y, hy, hw⟩)
                      rw [← this]; exact hh w hw
                    · intro hh w hw
                      have := hpres w (List.mem_flatMap.2 ⟨y, hy, hw⟩)
                      rw [this]; exact hh w hw
                  rw [hfil] at h1
                  simp only [flatMapOperandList, removeFun, AccessMap.getItem, hg, hp, AccessMap.pop, bind, Except.bind,
                    decide_true, if_true, h1, List.filter_cons, varOf_var, List.mem_singleton, forall_eq, ne_eq,
                    not_true_eq_false, decide_false, Bool.false_eq_true, if_false, List.map_nil, List.nil_append]
                · intro w
                  rw [h2, get_erase]
                  by_cases hwv : w = v
                  · subst hwv; simp [varOf_var, hg]
                  · simp [varOf_var, hwv]
              · obtain ⟨m', h1, h2⟩ := ih m (fun w hw => h w (by simp [varOf_var]; right; simpa using hw)) hn.2
                have hne : ¬ (some b = some a) := fun he => hb (Option.some.inj he)
                refine ⟨m', ?_, ?_⟩
                · simp only [flatMapOperandList, removeFun, AccessMap.getItem, hg, hp, hb, decide_false, bind,
                    Except.bind, Bool.false_eq_true, if_false, h1, List.filter_cons, varOf_var, List.mem_singleton,
                    forall_eq, ne_eq, hne, not_false_eq_true, decide_true, if_true, List.map_cons, List.map_nil,
                    List.cons_append, List.nil_append]
                · intro w
                  rw [h2]
                  by_cases hwv : w = v
                  · subst hwv
                    simp [varOf_var, hg, hne]
                  · simp [varOf_var, hwv]

theorem removeImplicit_ok (a : AccessKind) (pred : AccessKind → Bool) (hp : ∀ b, pred b = decide (b = a))
    (o : Option IOVar) (m : AccessMap) (h : ∀ v ∈ o.toList, AccessMap.get? m v ≠ none) :
    ∃ m', flatMapImplicit (removeFun pred) m o = .ok (o.filter (fun v => AccessMap.get? m v ≠ some a), m') ∧
      ∀ v, AccessMap.get? m' v = if v ∈ o.toList ∧ AccessMap.get? m v = some a then none
        else AccessMap.get? m v := by
  cases o with
  | none => exact ⟨m, rfl, fun v => by simp⟩
  | some v =>
      cases hg : AccessMap.get? m v with
      | none => exact absurd hg (h v (by simp))
      | some b =>
          by_cases hb : b = a
          · subst hb
            refine ⟨AccessMap.erase m v, ?_, ?_⟩
            · simp [flatMapImplicit, removeFun, AccessMap.getItem, hg, hp, AccessMap.pop, bind, Except.bind,
                Option.filter]
            · intro w; rw [get_erase]
              by_cases hwv : w = v
              · subst hwv; simp [hg]
              · simp [hwv]
          · refine ⟨m, ?_, ?_⟩
            · simp [flatMapImplicit, removeFun, AccessMap.getItem, hg, hp, hb, bind, Except.bind, Option.filter]
            · intro w
              by_cases hwv : w = v
              · subst hwv; simp [hg, hb]
              · simp [hwv]

/-- Removal of all occurrences with access `a`, for inputs or outputs. -/
theorem remove_ok (a : AccessKind) (pred : AccessKind → Bool) (hp : ∀ b, pred b = decide (b = a))
    (c : CommandInvocationWithIOVars) (hd : Described c) (hn : (occurrences c).Nodup)
    (hopt : ∀ v ∈ c.flagOptionList.flatMap optionVar, accessOf c v ≠ some a) :
    ∃ m', flatMapAnythingNonNames (removeFun pred) c.accessMap c = .ok
        ({ c with operandList := c.operandList.filter (fun x => ∀ v ∈ varOf x, accessOf c v ≠ some a)
                  implicitInput := c.implicitInput.filter (fun v => accessOf c v ≠ some a)
                  implicitOutput := c.implicitOutput.filter (fun v => accessOf c v ≠ some a) }, m') ∧
      ∀ v, AccessMap.get? m' v = if v ∈ withAccess c a then none else accessOf c v := by
  unfold occurrences at hn
  rw [List.append_assoc, List.append_assoc] at hn
  obtain ⟨n1, n2, n3⟩ := List.nodup_append.1 hn
  obtain ⟨n4, n5, n6⟩ := List.nodup_append.1 n2
  obtain ⟨n7, n8, n9⟩ := List.nodup_append.1 n5
  have d1 := removeFlags_ok a c.accessMap pred hp c.flagOptionList (fun v hv =>
    ⟨hd v (by unfold occurrences; simp only [List.mem_append]; exact .inl (.inl (.inl hv))), hopt v hv⟩)
  obtain ⟨m2, e2, g2⟩ := removeOperands_ok a pred hp c.operandList c.accessMap (fun v hv =>
    hd v (by unfold occurrences; simp only [List.mem_append]; exact .inl (.inl (.inr hv)))) n4
  have p2 : ∀ v ∈ c.implicitInput.toList, AccessMap.get? m2 v = accessOf c v := by
    intro v hv
    rw [g2, if_neg]; rfl
    rintro ⟨h, _⟩
    exact n6 v h v (List.mem_append.2 (.inl hv)) rfl
  obtain ⟨m3, e3, g3⟩ := removeImplicit_ok a pred hp c.implicitInput m2 (fun v hv => by
    rw [p2 v hv]
    exact hd v (by unfold occurrences; simp only [List.mem_append]; exact .inl (.inr hv)))
  have p3 : ∀ v ∈ c.implicitOutput.toList, AccessMap.get? m3 v = accessOf c v := by
    intro v hv
    rw [g3, if_neg, g2, if_neg]; rfl
    · rintro ⟨h, _⟩
      exact n6 v h v (List.mem_append.2 (.inr hv)) rfl
    · rintro ⟨h, _⟩
      exact n9 v h v hv rfl
  obtain ⟨m4, e4, g4⟩ := removeImplicit_ok a pred hp c.implicitOutput m3 (fun v hv => by
    rw [p3 v hv]
    exact hd v (by unfold occurrences; simp only [List.mem_append]; exact .inr hv))
  refine ⟨m4, ?_, ?_⟩
  · unfold flatMapAnythingNonNames
    simp only [d1, bind, Except.bind, e2, e3, e4]
    have q3 : c.implicitInput.filter (fun v => AccessMap.get? m2 v ≠ some a) =
        c.implicitInput.filter (fun v => accessOf c v ≠ some a) := by
      cases h : c.implicitInput with
      | none => rfl
      | some v => simp only [Option.filter, p2 v (by simp [h])]
    have q4 : c.implicitOutput.filter (fun v => AccessMap.get? m3 v ≠ some a) =
        c.implicitOutput.filter (fun v => accessOf c v ≠ some a) := by
      cases h : c.implicitOutput with
      | none => rfl
      | some v => simp only [Option.filter, p3 v (by simp [h])]
    rw [q3, q4]
    rfl
  · intro v
    have hacc : AccessMap.get? c.accessMap v = accessOf c v := rfl
    rw [g4, g3, g2, hacc]
    simp only [withAccess, occurrences, List.mem_filter, decide_eq_true_eq, List.mem_append]
    by_cases hv : accessOf c v = some a
    · by_cases h1 : v ∈ c.operandList.flatMap varOf
      · simp [hv, h1]
      · by_cases h2 : v ∈ c.implicitInput.toList
        · simp [hv, h1, h2]
        · by_cases h3 : v ∈ c.implicitOutput.toList
          · simp [hv, h1, h2, h3]
          · by_cases h4 : v ∈ c.flagOptionList.flatMap optionVar
            · exact absurd hv (hopt v h4)
            · simp only [hv, h1, h2, h3, h4, false_and, if_false, or_self]
    · simp [hv]

/-! What follows from a removal that returns. -/

theorem removeFlags_inv (a : AccessKind) (m : AccessMap) (pred : AccessKind → Bool)
    (hp : ∀ b, pred b = decide (b = a)) (l : List FlagOptionWithIOVar) (r : List FlagOptionWithIOVar × AccessMap)
    (h : flatMapFlagOptionList (removeFun pred) m l = .ok r) : r = (l, m) ∧
      ∀ v ∈ l.flatMap optionVar, AccessMap.get? m v ≠ none ∧ AccessMap.get? m v ≠ some a := by
  induction l generalizing r with
  | nil => cases h; exact ⟨rfl, by simp⟩
  | cons x l ih =>
      have skip : optionVar x = [] → (flatMapFlagOptionList (removeFun pred) m (x :: l) = (do
          let r' ← flatMapFlagOptionList (removeFun pred) m l
          .ok (x :: r'.1, r'.2))) → r = (x :: l, m) ∧
          ∀ v ∈ (x :: l).flatMap optionVar, AccessMap.get? m v ≠ none ∧ AccessMap.get? m v ≠ some a := by
        intro hx hstep
        rw [hstep] at h
        obtain ⟨r', hr, h⟩ := bind_ok h
        cases h
        obtain ⟨rfl, h2⟩ := ih r' hr
        exact ⟨rfl, by rw [List.flatMap_cons, hx]; exact h2⟩
      match x, skip, h with
      | .flag n, skip, _ => exact skip rfl rfl
      | .optionVar o n a, skip, _ => exact skip rfl rfl
      | .optionIO n (.str a), skip, _ => exact skip rfl rfl
      | .optionIO n (.io a), skip, _ => exact skip rfl rfl
      | .optionIO n (.var v), _, h =>
          cases hg : AccessMap.get? m v with
          | none => simp [flatMapFlagOptionList, removeFun, AccessMap.getItem, hg, bind, Except.bind] at h
          | some b =>
              by_cases hb : b = a
              · simp [flatMapFlagOptionList, removeFun, AccessMap.getItem, hg, hp, hb, AccessMap.pop, bind,
                  Except.bind] at h
              · simp only [flatMapFlagOptionList, removeFun, AccessMap.getItem, hg, hp, hb, decide_false,
                  Bool.false_eq_true, if_false, bind, Except.bind] at h
                cases hr : flatMapFlagOptionList (removeFun pred) m l with
                | error e => rw [hr] at h; cases h
                | ok r' =>
                    rw [hr] at h; cases h
                    obtain ⟨rfl, h2⟩ := ih r' hr
                    refine ⟨rfl, ?_⟩
                    intro w hw
                    rw [List.flatMap_cons, List.mem_append] at hw
                    rcases hw with hw | hw
                    · have : w = v := by simpa [optionVar, varOf] using hw
                      subst this
                      rw [hg]; simp [hb]
                    · exact h2 w hw

theorem removeOperands_inv (a : AccessKind) (pred : AccessKind → Bool) (hp : ∀ b, pred b = decide (b = a))
    (l : List VArg) (m : AccessMap) (r : List VArg × AccessMap)
    (h : flatMapOperandList (removeFun pred) m l = .ok r) :
    r.1 = l.filter (fun x => ∀ v ∈ varOf x, AccessMap.get? m v ≠ some a) ∧
    (∀ v ∈ l.flatMap varOf, AccessMap.get? m v ≠ none) ∧
    ∀ v, AccessMap.get? r.2 v = if v ∈ l.flatMap varOf ∧ AccessMap.get? m v = some a then none
      else AccessMap.get? m v := by
  induction l generalizing m r with
  | nil => cases h; exact ⟨rfl, by simp, by simp⟩
  | cons x l ih =>
      have skip : varOf x = [] → (flatMapOperandList (removeFun pred) m (x :: l) = (do
          let r' ← flatMapOperandList (removeFun pred) m l
          .ok (x :: r'.1, r'.2))) → r.1 = (x :: l).filter (fun x => ∀ v ∈ varOf x, AccessMap.get? m v ≠ some a) ∧
          (∀ v ∈ (x :: l).flatMap varOf, AccessMap.get? m v ≠ none) ∧
          ∀ v, AccessMap.get? r.2 v = if v ∈ (x :: l).flatMap varOf ∧ AccessMap.get? m v = some a then none
            else AccessMap.get? m v := by
        intro hx hstep
        rw [hstep] at h
        obtain ⟨r', hr, h⟩ := bind_ok h
        cases h
        obtain ⟨h1, h2, h3⟩ := ih m r' hr
        refine ⟨?_, by rw [List.flatMap_cons, hx]; exact h2, by rw [List.flatMap_cons, hx]; exact h3⟩
        simp only [List.filter_cons, hx, List.not_mem_nil, false_implies, implies_true, decide_true, if_true, h1]
      match x, skip, h with
      | .str s, skip, _ => exact skip rfl rfl
      | .io s, skip, _ => exact skip rfl rfl
      | .var v, _, h =>
          cases hg : AccessMap.get? m v with
          | none => simp [flatMapOperandList, removeFun, AccessMap.getItem, hg, bind, Except.bind] at h
          | some b =>
              by_cases hb : b = a
              · subst hb
                simp only [flatMapOperandList, removeFun, AccessMap.getItem, hg, hp, AccessMap.pop, decide_true,
                  if_true, bind, Except.bind] at h
                cases hr : flatMapOperandList (removeFun pred) (AccessMap.erase m v) l with
                | error e => rw [hr] at h; cases h
                | ok r' =>
                    rw [hr] at h; cases h
                    obtain ⟨h1, h2, h3⟩ := ih _ r' hr
                    have hne : ∀ w ∈ l.flatMap varOf, w ≠ v := by
                      intro w hw he
                      have := h2 w hw
                      rw [get_erase, if_pos he] at this
                      exact this rfl
                    have hpres : ∀ w ∈ l.flatMap varOf, AccessMap.get? (AccessMap.erase m v) w = AccessMap.get? m w := by
                      intro w hw; rw [get_erase, if_neg (hne w hw)]
                    refine ⟨?_, ?_, ?_⟩
                    · have hfil : l.filter (fun x => ∀ w ∈ varOf x, AccessMap.get? (AccessMap.erase m v) w ≠ some b) =
                          l.filter (fun x => ∀ w ∈ varOf x, AccessMap.get? m w ≠ some b) := by
                        apply List.filter_congr
                        intro y hy
                        congr 1
                        apply propext
                        constructor
                        · intro hh w hw
                          have := hpres w (List.mem_flatMap.2 ⟨y, hy, hw⟩)
                          rw [← this]; exact hh w hw
                        · intro hh w hw
                          have := hpres w (List.mem_flatMap.2 ⟨y, hy, hw⟩)
                          rw [this]; exact hh w hw
                      rw [hfil] at h1
                      simp only [List.map_nil, List.nil_append, h1, List.filter_cons, varOf_var, List.mem_singleton,
                        forall_eq, hg, ne_eq, not_true_eq_false, decide_false, Bool.false_eq_true, if_false]
                    · intro w hw
                      rw [List.flatMap_cons, varOf_var, List.mem_append, List.mem_singleton] at hw
                      rcases hw with rfl | hw
                      · rw [hg]; simp
                      · rw [← hpres w hw]; exact h2 w hw
                    · intro w
                      rw [h3, get_erase]
                      by_cases hwv : w = v
                      · subst hwv; simp [varOf_var, hg]
                      · simp [varOf_var, hwv]
              · have hne : ¬ (some b = some a) := fun he => hb (Option.some.inj he)
                simp only [flatMapOperandList, removeFun, AccessMap.getItem, hg, hp, hb, decide_false,
                  Bool.false_eq_true, if_false, bind, Except.bind] at h
                cases hr : flatMapOperandList (removeFun pred) m l with
                | error e => rw [hr] at h; cases h
                | ok r' =>
                    rw [hr] at h; cases h
                    obtain ⟨h1, h2, h3⟩ := ih _ r' hr
                    refine ⟨?_, ?_, ?_⟩
                    · simp only [List.filter_cons, varOf_var, List.mem_singleton, forall_eq, hg, ne_eq, hne,
                        not_false_eq_true, decide_true, if_true, List.map_cons, List.map_nil, List.cons_append,
                        List.nil_append, h1]
                    · intro w hw
                      rw [List.flatMap_cons, varOf_var, List.mem_append, List.mem_singleton] at hw
                      rcases hw with rfl | hw
                      · rw [hg]; simp
                      · exact h2 w hw
                    · intro w
                      rw [h3]
                      by_cases hwv : w = v
                      · subst hwv; simp [varOf_var, hg, hne]
                      · simp [varOf_var, hwv]

theorem removeImplicit_inv (a : AccessKind) (pred : AccessKind → Bool) (hp : ∀ b, pred b = decide (b = a))
    (o : Option IOVar) (m : AccessMap) (r : Option IOVar × AccessMap)
    (h : flatMapImplicit (removeFun pred) m o = .ok r) :
    r.1 = o.filter (fun v => AccessMap.get? m v ≠ some a) ∧ (∀ v ∈ o.toList, AccessMap.get? m v ≠ none) ∧
      ∀ v, AccessMap.get? r.2 v = if v ∈ o.toList ∧ AccessMap.get? m v = some a then none
        else AccessMap.get? m v := by
  by_cases hd : ∀ v ∈ o.toList, AccessMap.get? m v ≠ none
  · obtain ⟨m', h1, h2⟩ := removeImplicit_ok a pred hp o m hd
    rw [h1] at h; cases h
    exact ⟨rfl, hd, h2⟩
  · cases o with
    | none => exact absurd (by simp) hd
    | some v =>
        have hg : AccessMap.get? m v = none := by
          simpa using hd
        simp [flatMapImplicit, removeFun, AccessMap.getItem, hg, bind, Except.bind] at h

/-- Every removal that returns did what it should, and could only return because every occurrence is described,
no option holds a variable of that kind, and no variable of that kind occurs twice. -/
theorem remove_inv (a : AccessKind) (pred : AccessKind → Bool) (hp : ∀ b, pred b = decide (b = a))
    (c : CommandInvocationWithIOVars) (r : CommandInvocationWithIOVars × AccessMap)
    (h : flatMapAnythingNonNames (removeFun pred) c.accessMap c = .ok r) :
    r.1 = { c with operandList := c.operandList.filter (fun x => ∀ v ∈ varOf x, accessOf c v ≠ some a)
                   implicitInput := c.implicitInput.filter (fun v => accessOf c v ≠ some a)
                   implicitOutput := c.implicitOutput.filter (fun v => accessOf c v ≠ some a) } ∧
    Described c ∧ (∀ v ∈ c.flagOptionList.flatMap optionVar, accessOf c v ≠ some a) ∧
      ∀ v, AccessMap.get? r.2 v = if v ∈ withAccess c a then none else accessOf c v := by
  obtain ⟨r1, h1, h⟩ := bind_ok h
  obtain ⟨r2, h2, h⟩ := bind_ok h
  obtain ⟨r3, h3, h⟩ := bind_ok h
  obtain ⟨r4, h4, h⟩ := bind_ok h
  cases h
  obtain ⟨rfl, d1⟩ := removeFlags_inv a _ pred hp _ _ h1
  obtain ⟨e2, d2, g2⟩ := removeOperands_inv a pred hp _ _ _ h2
  obtain ⟨e3, d3, g3⟩ := removeImplicit_inv a pred hp _ _ _ h3
  obtain ⟨e4, d4, g4⟩ := removeImplicit_inv a pred hp _ _ _ h4
  simp only at g2 d2 e2
  -- an implicit stream that was among the removed operands would have no entry
  have p3 : ∀ v ∈ c.implicitInput.toList, AccessMap.get? r2.2 v = accessOf c v := by
    intro v hv
    have := d3 v hv
    rw [g2] at this ⊢
    split at this
    · exact absurd rfl this
    · rename_i hh; rw [if_neg hh]; rfl
  have p4 : ∀ v ∈ c.implicitOutput.toList, AccessMap.get? r3.2 v = accessOf c v := by
    intro v hv
    have h4 := d4 v hv
    rw [g3] at h4 ⊢
    split at h4
    · exact absurd rfl h4
    · rename_i hh
      rw [if_neg hh]
      rw [g2] at h4 ⊢
      split at h4
      · exact absurd rfl h4
      · rename_i hh'; rw [if_neg hh']; rfl
  have q3 : c.implicitInput.filter (fun v => AccessMap.get? r2.2 v ≠ some a) =
      c.implicitInput.filter (fun v => accessOf c v ≠ some a) := by
    cases h : c.implicitInput with
    | none => rfl
    | some v => simp only [Option.filter, p3 v (by simp [h])]
  have q4 : c.implicitOutput.filter (fun v => AccessMap.get? r3.2 v ≠ some a) =
      c.implicitOutput.filter (fun v => accessOf c v ≠ some a) := by
    cases h : c.implicitOutput with
    | none => rfl
    | some v => simp only [Option.filter, p4 v (by simp [h])]
  refine ⟨?_, ?_, fun v hv => (d1 v hv).2, ?_⟩
  · rw [e2, e3, e4, q3, q4]; rfl
  · intro v hv
    simp only [occurrences, List.mem_append] at hv
    rcases hv with ((hv | hv) | hv) | hv
    · exact (d1 v hv).1
    · exact d2 v hv
    · rw [← p3 v hv]; exact d3 v hv
    · rw [← p4 v hv]; exact d4 v hv
  · intro v
    have hacc : AccessMap.get? c.accessMap v = accessOf c v := rfl
    simp only [g4, g3, g2, hacc, withAccess, occurrences, List.mem_filter, decide_eq_true_eq, List.mem_append]
    by_cases hv : accessOf c v = some a
    · by_cases h1 : v ∈ c.operandList.flatMap varOf
      · simp [hv, h1]
      · by_cases h2 : v ∈ c.implicitInput.toList
        · simp [hv, h1, h2]
        · by_cases h3 : v ∈ c.implicitOutput.toList
          · simp [hv, h1, h2, h3]
          · by_cases h4 : v ∈ c.flagOptionList.flatMap optionVar
            · exact absurd hv (d1 v h4).2
            · simp only [hv, h1, h2, h3, h4, false_and, if_false, or_self]
    · simp [hv]

end PashAnn
