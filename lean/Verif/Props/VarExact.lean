import Verif.Spec.Walk
import Verif.Lemmas.VarOps
import Verif.Props.Vars

/-!
C42: what the substitution of inputs or of outputs does for any variables whatsoever.
-/

namespace PashAnn

open Spec

/-- The walk has at most one result. -/
theorem walk_unique {a : AccessKind} {acc : IOVar → Option AccessKind} {ns vs : List IOVar}
    {r r' : Py (List IOVar × (IOVar → Option AccessKind))} (h : Walk a acc ns vs r) (h' : Walk a acc ns vs r') :
    r = r' := by
  induction h generalizing r' with
  | done => cases h'; rfl
  | left => cases h'; rfl
  | unknown hn => cases h' <;> simp_all
  | missing hs => cases h' <;> simp_all
  | replace hs _ ih =>
      cases h' with
      | replace _ h => have := ih h; simp_all
      | replaceThenRaise _ h => exact absurd (ih h) (by simp)
      | unknown hn => simp_all
      | keep h1 h2 => simp_all
      | keepThenRaise h1 h2 => simp_all
  | replaceThenRaise hs _ ih =>
      cases h' with
      | replace _ h => exact absurd (ih h) (by simp)
      | replaceThenRaise _ h => exact ih h
      | unknown hn => simp_all
      | keep h1 h2 => simp_all
      | keepThenRaise h1 h2 => simp_all
  | keep h1 h2 _ ih =>
      cases h' with
      | keep _ _ h => have := ih h; simp_all
      | keepThenRaise _ _ h => exact absurd (ih h) (by simp)
      | unknown hn => simp_all
      | missing hs => simp_all
      | replace hs _ => simp_all
      | replaceThenRaise hs _ => simp_all
  | keepThenRaise h1 h2 _ ih =>
      cases h' with
      | keep _ _ h => exact absurd (ih h) (by simp)
      | keepThenRaise _ _ h => exact ih h
      | unknown hn => simp_all
      | missing hs => simp_all
      | replace hs _ => simp_all
      | replaceThenRaise hs _ => simp_all

/-- The walk along a list of variables, and the run of the code's function along it. -/
private theorem run_walk (a : AccessKind) (m : AccessMap) (ns vs : List IOVar) :
    (∃ e, run (gSub a) (m, ns) vs = .error e ∧ Walk a (AccessMap.get? m) ns vs (.error e)) ∨
    (∃ new m' n ns', run (gSub a) (m, ns) vs = .ok (new, (m', n :: ns')) ∧
      Walk a (AccessMap.get? m) ns vs (.error .assertionError)) ∨
    (∃ new m', run (gSub a) (m, ns) vs = .ok (new, (m', [])) ∧
      Walk a (AccessMap.get? m) ns vs (.ok (new, AccessMap.get? m'))) := by
  induction vs generalizing m ns with
  | nil =>
      cases ns with
      | nil => exact .inr (.inr ⟨[], m, rfl, .done _⟩)
      | cons n ns => exact .inr (.inl ⟨[], m, n, ns, rfl, .left _ _ _⟩)
  | cons v vs ih =>
      cases hg : AccessMap.get? m v with
      | none => exact .inl ⟨.keyError, by simp [run, gSub, hg, bind, Except.bind], .unknown hg⟩
      | some b =>
          by_cases hb : b = a
          · subst hb
            cases ns with
            | nil => exact .inl ⟨.indexError, by simp [run, gSub, hg, bind, Except.bind], .missing hg⟩
            | cons n ns =>
                have hf : AccessMap.get? (AccessMap.set (AccessMap.erase m v) n b) =
                    fun x => if x = n then some b else if x = v then none else AccessMap.get? m x := by
                  funext x
                  rw [get_set, get_erase]
                rcases ih (AccessMap.set (AccessMap.erase m v) n b) ns with ⟨e, h, w⟩ | ⟨new, m', k, ks, h, w⟩ |
                  ⟨new, m', h, w⟩ <;> rw [hf] at w
                · exact .inl ⟨e, by simp [run, gSub, hg, bind, Except.bind, h], .replaceThenRaise hg w⟩
                · exact .inr (.inl ⟨n :: new, m', k, ks, by simp [run, gSub, hg, bind, Except.bind, h],
                    .replaceThenRaise hg w⟩)
                · exact .inr (.inr ⟨n :: new, m', by simp [run, gSub, hg, bind, Except.bind, h], .replace hg w⟩)
          · rcases ih m ns with ⟨e, h, w⟩ | ⟨new, m', k, ks, h, w⟩ | ⟨new, m', h, w⟩
            · exact .inl ⟨e, by simp [run, gSub, hg, hb, bind, Except.bind, h], .keepThenRaise hg hb w⟩
            · exact .inr (.inl ⟨v :: new, m', k, ks, by simp [run, gSub, hg, hb, bind, Except.bind, h],
                .keepThenRaise hg hb w⟩)
            · exact .inr (.inr ⟨v :: new, m', by simp [run, gSub, hg, hb, bind, Except.bind, h], .keep hg hb w⟩)

private theorem kind_walk (a : AccessKind) (c : CommandInvocationWithIOVars) (ns : List IOVar) :
    (∃ e, substituteKind a c ns = .error e ∧ Walk a (accessOf c) ns (occurrences c) (.error e)) ∨
    (∃ c', substituteKind a c ns = .ok c' ∧ SameShape c c' ∧
      Walk a (accessOf c) ns (occurrences c) (.ok (occurrences c', accessOf c'))) := by
  rcases run_walk a c.accessMap ns (occurrences c) with ⟨e, h, w⟩ | ⟨new, m', k, ks, h, w⟩ | ⟨new, m', h, w⟩
  · refine .inl ⟨e, ?_, w⟩
    unfold substituteKind
    rw [traverse_error h]; rfl
  · refine .inl ⟨.assertionError, ?_, w⟩
    obtain ⟨c', h1, _⟩ := traverse_ok h
    unfold substituteKind
    rw [h1]; rfl
  · obtain ⟨c', h1, h2, h3, _⟩ := traverse_ok h
    refine .inr ⟨{ c' with accessMap := m' }, ?_, h3, ?_⟩
    · unfold substituteKind
      rw [h1]; rfl
    · subst h2; exact w

private theorem kind_exact (a : AccessKind) (c : CommandInvocationWithIOVars) (ns : List IOVar) :
    (∀ e, substituteKind a c ns = .error e ↔ Walk a (accessOf c) ns (occurrences c) (.error e)) ∧
    (∀ vs acc, Walk a (accessOf c) ns (occurrences c) (.ok (vs, acc)) ↔
      ∃ c', substituteKind a c ns = .ok c' ∧ SameShape c c' ∧ occurrences c' = vs ∧ accessOf c' = acc) := by
  have key := kind_walk a c ns
  rcases key with ⟨e, h, w⟩ | ⟨c', h, s, w⟩
  · refine ⟨fun e' => ⟨fun h' => ?_, fun w' => ?_⟩, fun vs acc => ⟨fun w' => ?_, ?_⟩⟩
    · rw [h] at h'; cases h'; exact w
    · rw [h]; have := walk_unique w w'; cases this; rfl
    · exact absurd (walk_unique w w') (by simp)
    · rintro ⟨c', h', _⟩; rw [h] at h'; cases h'
  · refine ⟨fun e' => ⟨fun h' => ?_, fun w' => ?_⟩, fun vs acc => ⟨fun w' => ?_, ?_⟩⟩
    · rw [h] at h'; cases h'
    · exact absurd (walk_unique w w') (by simp)
    · have := walk_unique w w'
      cases this
      exact ⟨c', h, s, rfl, rfl⟩
    · rintro ⟨c'', h', _, rfl, rfl⟩
      rw [h] at h'; cases h'; exact w

/-- C42, exactly, for every invocation and every list of variables, without any hypothesis: substituting the inputs
raises `e` exactly if the walk along the variables of the invocation ends in `e`, and it yields an invocation of the
same shape with the variables `vs`, accessed as by `acc`, exactly if the walk ends in these. -/
theorem C42_exact_inputs (c : CommandInvocationWithIOVars) (ns : List IOVar) :
    (∀ e, c.substituteInputs ns = .error e ↔ Walk .streamInput (accessOf c) ns (occurrences c) (.error e)) ∧
    (∀ vs acc, Walk .streamInput (accessOf c) ns (occurrences c) (.ok (vs, acc)) ↔
      ∃ c', c.substituteInputs ns = .ok c' ∧ SameShape c c' ∧ occurrences c' = vs ∧ accessOf c' = acc) := by
  rw [substituteInputs_eq]; exact kind_exact _ c ns

/-- C42, exactly, for outputs. -/
theorem C42_exact_outputs (c : CommandInvocationWithIOVars) (ns : List IOVar) :
    (∀ e, c.substituteOutputs ns = .error e ↔ Walk .streamOutput (accessOf c) ns (occurrences c) (.error e)) ∧
    (∀ vs acc, Walk .streamOutput (accessOf c) ns (occurrences c) (.ok (vs, acc)) ↔
      ∃ c', c.substituteOutputs ns = .ok c' ∧ SameShape c c' ∧ occurrences c' = vs ∧ accessOf c' = acc) := by
  rw [substituteOutputs_eq]; exact kind_exact _ c ns

/-- The walk of the invocation that refutes C42 without freshness: its output, given as new input, is then itself
replaced, because it counts as an input when it is visited. -/
example : ∃ c' : CommandInvocationWithIOVars, CommandInvocationWithIOVars.substituteInputs
    ⟨"cat", [], [.var 1], none, some 2, [(1, .streamInput), (2, .streamOutput)]⟩ [2, 5] = .ok c' ∧
    occurrences c' = [2, 5] ∧ accessOf c' 2 = none ∧ accessOf c' 5 = some .streamInput := by
  obtain ⟨c', h, _, h2, h3⟩ := ((C42_exact_inputs
    ⟨"cat", [], [.var 1], none, some 2, [(1, .streamInput), (2, .streamOutput)]⟩ [2, 5]).2 [2, 5] _).1
    (.replace (by decide) (.replace (by decide) (.done _)))
  exact ⟨c', h, h2, by rw [h3]; rfl, by rw [h3]; rfl⟩

/-- The same variable twice among the inputs: the second visit finds it replaced by its own name. -/
example : CommandInvocationWithIOVars.substituteInputs
    ⟨"cat", [], [.var 1, .var 1], none, none, [(1, .streamInput)]⟩ [5, 6] = .error .keyError :=
  ((C42_exact_inputs _ _).1 _).2 (.replaceThenRaise (by decide) (.unknown (by decide)))

/-- A successful substitution uses up all new variables: what it returns has them all, whatever they are. -/
theorem C42_all_used (c c' : CommandInvocationWithIOVars) (ns : List IOVar)
    (h : c.substituteInputs ns = .ok c' ∨ c.substituteOutputs ns = .ok c') :
    ns.Sublist (occurrences c') ∧ (occurrences c').length = (occurrences c).length := by
  have key : ∀ {a acc ns vs r}, Walk a acc ns vs r → ∀ vs' acc', r = .ok (vs', acc') →
      ns.Sublist vs' ∧ vs'.length = vs.length := by
    intro a acc ns vs r w
    induction w with
    | done => intro _ _ h; cases h; exact ⟨.slnil, rfl⟩
    | left | unknown | missing => intro _ _ h; cases h
    | replace _ _ ih =>
        intro _ _ h; cases h
        obtain ⟨h1, h2⟩ := ih _ _ rfl
        exact ⟨h1.cons_cons _, by simp [h2]⟩
    | replaceThenRaise => intro _ _ h; cases h
    | keep _ _ _ ih =>
        intro _ _ h; cases h
        obtain ⟨h1, h2⟩ := ih _ _ rfl
        exact ⟨h1.cons _, by simp [h2]⟩
    | keepThenRaise => intro _ _ h; cases h
  have kind : ∀ a, substituteKind a c ns = .ok c' →
      ns.Sublist (occurrences c') ∧ (occurrences c').length = (occurrences c).length := by
    intro a h
    rcases kind_walk a c ns with ⟨e, h', _⟩ | ⟨c'', h', _, w⟩
    · rw [h] at h'; cases h'
    · rw [h] at h'; cases h'
      exact key w _ _ rfl
  rcases h with h | h
  · rw [substituteInputs_eq] at h; exact kind _ h
  · rw [substituteOutputs_eq] at h; exact kind _ h

example : ∃ c' : CommandInvocationWithIOVars, CommandInvocationWithIOVars.substituteInputs
    ⟨"cat", [], [.var 1, .var 3], none, some 2, [(1, .streamInput), (3, .streamInput), (2, .streamOutput)]⟩ [7, 8] =
      .ok c' :=
  ⟨⟨"cat", [], [.var 7, .var 8], none, some 2, [(2, .streamOutput), (7, .streamInput), (8, .streamInput)]⟩,
    by decide +kernel⟩

end PashAnn
