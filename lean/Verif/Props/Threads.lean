import Verif.Lemmas.Threads

/-!
C95: Threads that keep apart do not notice each other.

Several threads call methods of invocations. They take turns in any order, and a turn is a single access to an attribute or
to the dictionary of an invocation (`Model/Threads.lean`).
-/

namespace PashAnn
open Spec Threads

private theorem sequential_thread (t : List MethodCall) : ∀ w : World,
    ∃ rs u, undisturbed (threadOf t) w = (.ok rs, u) ∧ Sequential t w rs u := by
  induction t with
  | nil => intro w; exact ⟨[], w, rfl, .nil⟩
  | cons m t ih =>
      intro w
      have h1 : undisturbed (m.method.prog m.self).attempt w = (.ok (runOn (m.method.prog m.self) (w m.self)).1,
          w.set m.self (runOn (m.method.prog m.self) (w m.self)).2) := by
        rw [undisturbed_attempt, undisturbed_only (only_method _ _)]
      have h2 := method_alone m.self (w m.self) m.method
      cases he : m.method.effect (w m.self) with
      | ok r =>
          rw [he] at h2
          rw [h2] at h1
          obtain ⟨rs, u, e1, e2⟩ := ih (w.set m.self r.2)
          refine ⟨.ok r.1 :: rs, u, ?_, .answers he e2⟩
          rw [threadOf, undisturbed_bind, h1]
          simp only [undisturbed_bind, e1]; rfl
      | error e =>
          rw [he] at h2
          obtain ⟨c', h2⟩ := h2
          rw [h2] at h1
          obtain ⟨rs, u, e1, e2⟩ := ih (w.set m.self c')
          refine ⟨.error e :: rs, u, ?_, .raises he e2⟩
          rw [threadOf, undisturbed_bind, h1]
          simp only [undisturbed_bind, e1]; rfl

private theorem stuck_done {α : Type} {w : World} {ts : List (Prog α)} (h : ∀ s, ¬ Turn (w, ts) s) {i : Nat} {p : Prog α}
    (hp : ts[i]? = some p) : ∃ r, p = .done r := by
  cases p with
  | done r => exact ⟨r, rfl⟩
  | step a o k => exact absurd (Turn.turn i hp) (h _)

/-- If an invocation that several threads use is only asked by all of them, then in whatever order the threads take turns,
when no thread can go on every thread has ended, each call has answered or raised what it does when the thread runs alone,
the invocations used by a thread are left as that thread leaves them when it runs alone, and the others are as before. -/
theorem C95_every_schedule (calls : List (List MethodCall)) (apart : KeepApart calls) (w w' : World)
    (ts : List (Prog (List (Py Answer)))) (turns : Turns (w, calls.map threadOf) (w', ts)) (stuck : ∀ s, ¬ Turn (w', ts) s) :
    ts.length = calls.length ∧
    (∀ (i : Nat) t, calls[i]? = some t → ∃ rs u, ts[i]? = some (.done (.ok rs)) ∧
      undisturbed (threadOf t) w = (.ok rs, u) ∧ Sequential t w rs u ∧ ∀ m ∈ t, w' m.self = u m.self) ∧
    ∀ a, (∀ t ∈ calls, ∀ m ∈ t, m.self = a → m.method.Asks) → w' a = w a := by
  obtain ⟨h1, h2, h3⟩ := kept_turns apart (kept_start w calls) turns
  simp only at h1 h2 h3
  refine ⟨h1, ?_, ?_⟩
  · intro i t ht
    obtain ⟨hi, _⟩ := List.getElem?_eq_some_iff.mp ht
    have hp : ts[i]? = some ts[i] := List.getElem?_eq_getElem (h1 ▸ hi)
    obtain ⟨v, e1, _, e3⟩ := h2 i _ t hp ht
    obtain ⟨r, hr⟩ := stuck_done stuck hp
    obtain ⟨rs, u, f1, f2⟩ := sequential_thread t w
    rw [hr] at e3 hp
    have e4 : (r, v) = (Except.ok rs, u) := e3.trans f1
    obtain ⟨rfl, rfl⟩ := Prod.mk.inj e4
    exact ⟨rs, v, hp, f1, f2, fun m hm => e1 _ ⟨m, hm, rfl⟩⟩
  · intro a ha
    exact h3 a fun t ht ⟨m, hm, hs, hn⟩ => hn (ha t ht m hm hs)

/-- Threads cannot take turns for ever, whatever they call and whether or not they keep apart. -/
theorem C95_ends (f : Nat → World × List (Prog (List (Py Answer)))) : ¬ ∀ n, Turn (f n) (f (n + 1)) := by
  intro h
  have : ∀ ts : List (Prog (List (Py Answer))), Acc Child ts → ∀ n, (f n).2 ≠ ts := by
    intro ts hts
    induction hts with
    | intro ts _ ih =>
        intro n hn
        exact ih _ (hn ▸ turn_child (h n)) (n + 1) rfl
  exact this _ (child_acc _) 0 rfl

private theorem asking_thread (t : List MethodCall) (w : World) (h : ∀ m ∈ t, m.method.Asks) :
    undisturbed (threadOf t) w = (.ok (t.map fun m => (m.method.effect (w m.self)).map (·.1)), w) := by
  induction t with
  | nil => rfl
  | cons m t ih =>
      obtain ⟨r, e1, e2⟩ := quiet_method m.self (w m.self) m.method (h m (List.mem_cons_self ..))
      rw [threadOf, undisturbed_bind, undisturbed_attempt, undisturbed_only (only_method _ _), e2.runOn, set_self]
      simp only [undisturbed_bind, ih fun n hn => h n (List.mem_cons_of_mem _ hn), List.map_cons, e1]
      cases r <;> rfl

/-- Threads that only ask may share every invocation: at every moment all invocations are as at the beginning, and at the
end every call has the answer it has on them. -/
theorem C95_asking (calls : List (List MethodCall)) (asks : ∀ t ∈ calls, ∀ m ∈ t, m.method.Asks) (w w' : World)
    (ts : List (Prog (List (Py Answer)))) (turns : Turns (w, calls.map threadOf) (w', ts)) :
    w' = w ∧ ((∀ s, ¬ Turn (w', ts) s) →
      ts = calls.map fun t => .done (.ok (t.map fun m => (m.method.effect (w m.self)).map (·.1)))) := by
  have apart : KeepApart calls := fun i j t u ht hu _ m hm n hn _ =>
    ⟨asks t (List.mem_of_getElem? ht) m hm, asks u (List.mem_of_getElem? hu) n hn⟩
  refine ⟨?_, fun stuck => ?_⟩
  · obtain ⟨_, _, h3⟩ := kept_turns apart (kept_start w calls) turns
    funext a
    exact h3 a fun t ht ⟨m, hm, _, hn⟩ => hn (asks t ht m hm)
  · obtain ⟨h1, h2, _⟩ := C95_every_schedule calls apart w w' ts turns stuck
    apply List.ext_getElem?
    intro i
    rw [List.getElem?_map]
    cases ht : calls[i]? with
    | none =>
        rw [List.getElem?_eq_none_iff] at ht
        exact List.getElem?_eq_none_iff.mpr (by omega)
    | some t =>
        obtain ⟨rs, u, e1, e2, _⟩ := h2 i t ht
        rw [asking_thread t w (asks t (List.mem_of_getElem? ht))] at e2
        rw [e1]
        obtain ⟨e, _⟩ := Prod.mk.inj e2
        rw [← e]; rfl

/-! ### Asking while another thread changes -/

/-- The next turns are taken by the threads with these numbers. -/
private def follow {α : Type} : List Nat → World × List (Prog α) → World × List (Prog α)
  | [], s => s
  | i :: is, (w, ts) => match ts[i]? with
      | some (.step a o k) => follow is (w.set a (o.run (w a)).2, ts.set i (k (o.run (w a)).1))
      | _ => follow is (w, ts)

private theorem turns_follow {α : Type} : ∀ (is : List Nat) (s : World × List (Prog α)), Turns s (follow is s)
  | [], s => .refl
  | i :: is, (w, ts) => by
      rw [follow]
      split
      · rename_i a o k h
        exact .step (Turn.turn i h) (turns_follow is _)
      · exact turns_follow is _

/-- `cat` with the variable 0 as its only operand. -/
private def shared : CommandInvocationWithIOVars := ⟨"cat", [], [.var 0], none, none, [(0, .streamInput)]⟩

/-- A method that only asks may undo what another thread changes. One thread asks for the inputs of an invocation while
the other renames its input 0 to 5. In either order, one after the other, the operand is 5. There is an order of turns in
which both calls succeed and afterwards the operand is still 0 although the dictionary knows only 5, so that asking for the
inputs again raises a `KeyError`: the methods that ask assign the list they have read to the attribute. -/
theorem C95_asking_while_changing_false :
    ∃ (w w' : World), Turns (w, [threadOf [⟨0, .generateInputs⟩], threadOf [⟨0, .replaceVar (some 0) 5⟩]])
        (w', [.done (.ok [.ok (.vars [0])]), .done (.ok [.ok .nothing])]) ∧
      (w' 0).operandList = [.var 0] ∧ (w' 0).accessMap = [(5, .streamInput)] ∧
      (w' 0).generateInputs = .error .keyError ∧
      (∃ rs u, Sequential [⟨0, .generateInputs⟩, ⟨0, .replaceVar (some 0) 5⟩] w rs u ∧ (u 0).operandList = [.var 5]) ∧
      (∃ rs u, Sequential [⟨0, .replaceVar (some 0) 5⟩, ⟨0, .generateInputs⟩] w rs u ∧ (u 0).operandList = [.var 5]) := by
  have hs := turns_follow ([0, 0, 0, 0, 0] ++ List.replicate 20 1 ++ List.replicate 20 0)
    ((fun _ => shared : World), [threadOf [⟨0, .generateInputs⟩], threadOf [⟨0, .replaceVar (some 0) 5⟩]])
  refine ⟨fun _ => shared, _, hs, rfl, rfl, rfl, ?_, ?_⟩
  · exact ⟨_, _, .answers rfl (.answers rfl .nil), rfl⟩
  · exact ⟨_, _, .answers rfl (.answers rfl .nil), rfl⟩

/-! ### Examples -/

/-- Three threads: the first two ask the invocation 0, the third renames the input of the invocation 1 and asks for its
inputs. -/
private def three : List (List MethodCall) :=
  [[⟨0, .generateInputs⟩, ⟨0, .hasOtherOutputs⟩], [⟨0, .generateInputs⟩],
   [⟨1, .replaceVar (some 0) 5⟩, ⟨1, .generateInputs⟩]]

/-- The three threads when they have ended. -/
private def ended : List (Prog (List (Py Answer))) :=
  [.done (.ok [.ok (.vars [0]), .ok (.bool false)]), .done (.ok [.ok (.vars [0])]),
   .done (.ok [.ok .nothing, .ok (.vars [5])])]

private theorem ended_stuck (w : World) (s : World × List (Prog (List (Py Answer)))) : ¬ Turn (w, ended) s := by
  intro hs
  cases hs with
  | turn i hi =>
      match i with
      | 0 | 1 | 2 => simp [ended] at hi
      | i + 3 => simp [ended] at hi

/-- They keep apart, and in the order 0, 1, 2, 0, 1, 2, … the turns end. -/
example : KeepApart three ∧ ∃ w' : World, Turns ((fun _ => shared), three.map threadOf) (w', ended) ∧
    (∀ s, ¬ Turn (w', ended) s) ∧ w' 0 = shared ∧ (w' 1).operandList = [.var 5] := by
  refine ⟨?_, ?_⟩
  · intro i j t u ht hu hij m hm n hn hmn
    match i, j with
    | 0, 0 | 1, 1 | 2, 2 => exact absurd rfl hij
    | 0, 1 =>
        obtain rfl := Option.some.inj ht; obtain rfl := Option.some.inj hu
        simp at hm hn; rcases hm with rfl | rfl <;> subst hn <;> exact ⟨trivial, trivial⟩
    | 1, 0 =>
        obtain rfl := Option.some.inj ht; obtain rfl := Option.some.inj hu
        simp at hm hn; rcases hn with rfl | rfl <;> subst hm <;> exact ⟨trivial, trivial⟩
    | 0, 2 | 1, 2 | 2, 0 | 2, 1 =>
        obtain rfl := Option.some.inj ht; obtain rfl := Option.some.inj hu
        simp at hm hn
        grind
    | i + 3, _ => simp [three] at ht
    | _, j + 3 => simp [three] at hu
  · exact ⟨_, turns_follow (List.replicate 40 [0, 1, 2]).flatten _, ended_stuck _, rfl, rfl⟩

end PashAnn
