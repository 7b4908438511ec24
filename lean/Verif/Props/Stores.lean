import Verif.Spec.Stores
import Verif.Props.Equality

/-! C92 (property stores), and C58 for prefixes of invocations. -/

namespace PashAnn
open Spec

namespace PropDict
variable {α : Type}

theorem get_set (d : PropDict α) (k k' : String) (v : α) : (d.set k v).get k' = if k' = k then some v else d.get k' := by
  unfold get set
  by_cases h : k' = k
  · subst h; simp
  · rw [if_neg h, List.find?_cons_of_neg (by simpa using Ne.symm h), List.find?_filter]
    congr 1
    refine congrArg (fun p => List.find? p d) (funext fun e => ?_)
    by_cases he : e.1 = k'
    · simp [he, h]
    · simp [he]

theorem get_eq (d : PropDict α) (n : String) (x : Option α) :
    ((∃ v, x = some v ∧ ∃ a b, d = a ++ (n, v) :: b ∧ ∀ e ∈ a, e.1 ≠ n) ∨ (x = none ∧ ∀ e ∈ d, e.1 ≠ n)) → d.get n = x := by
  rintro (⟨v, rfl, a, b, rfl, h⟩ | ⟨rfl, h⟩)
  · have : List.find? (fun e : String × α => e.1 == n) a = none := by simpa [List.find?_eq_none] using h
    simp [get, List.find?_append, this]
  · simp only [get, Option.map_eq_none_iff, List.find?_eq_none]
    intro e he; simpa using h e he

end PropDict

namespace PropWorld
variable {α : Type}

theorem history_append (a b : List (PropStep α)) : history (a ++ b) = b.foldl step (history a) := List.foldl_append

/-- No step changes the dictionary of an object, or removes one. -/
theorem step_objects (w : PropWorld α) (s : PropStep α) : ∃ l, (w.step s).objects = w.objects ++ l := by
  cases s with
  | dict d => exact ⟨[], by simp [step]⟩
  | make g => exact ⟨_, rfl⟩
  | setProperty o n v =>
      refine ⟨[], ?_⟩
      simp only [step, setProperty]
      split <;> simp [store]
  | store d n v => exact ⟨[], by simp [step, store]⟩

theorem foldl_objects (w : PropWorld α) (l : List (PropStep α)) : ∃ m, (l.foldl step w).objects = w.objects ++ m := by
  induction l generalizing w with
  | nil => exact ⟨[], by simp⟩
  | cons s l ih =>
      obtain ⟨a, ha⟩ := step_objects w s
      obtain ⟨b, hb⟩ := ih (w.step s)
      exact ⟨a ++ b, by rw [List.foldl_cons, hb, ha, List.append_assoc]⟩

theorem store_get (w : PropWorld α) (e : Nat) (m : String) (v : α) (d : Nat) (n : String) (x : Option α)
    (h : (w.dicts[d]?).map (fun d => d.get n) = some x) (hne : ¬ (e = d ∧ m = n)) :
    (((w.store e m v).dicts)[d]?).map (fun d => d.get n) = some x := by
  simp only [store, List.getElem?_modify]
  cases hd : w.dicts[d]? with
  | none => rw [hd] at h; cases h
  | some t =>
      rw [hd] at h
      simp only [Option.map_some, Option.some.injEq, Option.map_eq_map] at h ⊢
      by_cases he : e = d
      · rw [if_pos he, PropDict.get_set, if_neg (fun hn => hne ⟨he, hn.symm⟩), h]
      · rw [if_neg he]; exact h

/-- A step that does not write the property leaves it as it is. -/
theorem step_keeps (w : PropWorld α) (s : PropStep α) (objects : List Nat) (hp : ∃ l, objects = w.objects ++ l) (d : Nat)
    (n : String) (x : Option α) (h : (w.dicts[d]?).map (fun d => d.get n) = some x) (hs : ¬ WritesTo objects d n s) :
    (((w.step s).dicts)[d]?).map (fun d => d.get n) = some x := by
  have happ : ∀ t, ((w.dicts ++ [t])[d]?).map (fun d => PropDict.get d n) = some x := by
    intro t
    cases hd : w.dicts[d]? with
    | none => rw [hd] at h; cases h
    | some u =>
        have : d < w.dicts.length := by
          rcases Nat.lt_or_ge d w.dicts.length with h' | h'
          · exact h'
          · rw [List.getElem?_eq_none h'] at hd; cases hd
        rw [List.getElem?_append_left this]; exact h
  cases s with
  | dict t => exact happ t
  | make g => exact happ []
  | setProperty o m v =>
      simp only [step, setProperty]
      split
      · exact h
      · rename_i e he
        refine store_get w e m v d n x h (fun hc => hs ?_)
        obtain ⟨l, rfl⟩ := hp
        refine ⟨?_, hc.2⟩
        rw [← hc.1, List.getElem?_append_left, he]
        rcases Nat.lt_or_ge o w.objects.length with h' | h'
        · exact h'
        · rw [List.getElem?_eq_none h'] at he; cases he
  | store e m v => exact store_get w e m v d n x h hs

theorem foldl_keeps (l : List (PropStep α)) (w : PropWorld α) (d : Nat) (n : String) (x : Option α)
    (h : (w.dicts[d]?).map (fun d => d.get n) = some x)
    (hs : ∀ s ∈ l, ¬ WritesTo (l.foldl step w).objects d n s) :
    (((l.foldl step w).dicts)[d]?).map (fun d => d.get n) = some x := by
  induction l generalizing w with
  | nil => exact h
  | cons s l ih =>
      refine ih (w.step s) (step_keeps w s _ (foldl_objects w (s :: l)) d n x h (hs s (by simp))) ?_
      intro t ht; exact hs t (by simp [ht])

theorem step_length (w : PropWorld α) (s : PropStep α) : w.dicts.length ≤ (w.step s).dicts.length := by
  cases s with
  | dict d => simp [step]
  | make g => simp [step, make]
  | setProperty o n v =>
      simp only [step, setProperty]
      split <;> simp [store]
  | store d n v => simp [step, store]

end PropWorld

open PropWorld

/-- C92. The last value that was set counts: if a property is set and afterwards not set again, through whichever object
that holds the same dictionary or in the dictionary itself, every object that holds this dictionary, made before or after,
gives this value. -/
theorem C92_last {α : Type} (before after : List (PropStep α)) (o o' d : Nat) (n : String) (v : α)
    (ho : (history before).objects[o]? = some d) (hd : d < (history before).dicts.length)
    (ho' : (history (before ++ .setProperty o n v :: after)).objects[o']? = some d)
    (hs : ∀ s ∈ after, ¬ WritesTo (history (before ++ .setProperty o n v :: after)).objects d n s) :
    (history (before ++ .setProperty o n v :: after)).getPropertyValue o' n = some (some v) := by
  unfold getPropertyValue
  rw [ho']
  rw [history_append, List.foldl_cons] at hs ⊢
  refine foldl_keeps after _ d n (some v) ?_ hs
  simp only [step, setProperty, ho, store, List.getElem?_modify, List.getElem?_eq_getElem hd, if_pos, Option.map_eq_map,
    Option.map_some, PropDict.get_set]

/-- C92. A property that was never set has the value it had in the given dictionary, and none if no dictionary was
given: `step` makes the dictionary `d`, and no later step sets the property in it. -/
theorem C92_initial {α : Type} (before after : List (PropStep α)) (mk : PropStep α) (o : Nat) (n : String)
    (x : Option α) (hmk : Initially n mk x)
    (ho : (history (before ++ mk :: after)).objects[o]? = some (history before).dicts.length)
    (hs : ∀ s ∈ after, ¬ WritesTo (history (before ++ mk :: after)).objects (history before).dicts.length n s) :
    (history (before ++ mk :: after)).getPropertyValue o n = some x := by
  unfold getPropertyValue
  rw [ho]
  rw [history_append, List.foldl_cons] at hs ⊢
  refine foldl_keeps after _ _ n x ?_ hs
  cases mk with
  | dict t => simp [step, PropDict.get_eq t n x hmk]
  | make g => cases hmk; simp [step, make, PropDict.get]
  | setProperty o m v => exact hmk.elim
  | store e m v => exact hmk.elim

/-- C92. An object made without a dictionary has one of its own: no object made before holds it. An object made with a
dictionary holds that one, not a copy. -/
theorem C92_own {α : Type} (before : List (PropStep α)) (hg : GivenExist before) :
    (history (before ++ [.make none])).objects = (history before).objects ++ [(history before).dicts.length] ∧
    (∀ d ∈ (history before).objects, d < (history before).dicts.length) ∧
    ∀ d, (history (before ++ [.make (some d)])).objects = (history before).objects ++ [d] := by
  refine ⟨by rw [history_append]; rfl, ?_, fun d => by rw [history_append]; rfl⟩
  suffices h : ∀ (l : List (PropStep α)) (w : PropWorld α), (∀ d ∈ w.objects, d < w.dicts.length) →
      (∀ a d b, l = a ++ .make (some d) :: b → d < (a.foldl step w).dicts.length) →
      ∀ d ∈ (l.foldl step w).objects, d < (l.foldl step w).dicts.length from
    h before ⟨[], []⟩ (by simp) (fun a d b e => hg a d b e)
  intro l
  induction l with
  | nil => intro w hw _; exact hw
  | cons s l ih =>
      intro w hw h
      refine ih (w.step s) ?_ (fun a d b e => by simpa using h (s :: a) d b (by rw [e]; rfl))
      intro d hd
      cases s with
      | dict t => exact Nat.lt_of_lt_of_le (hw d hd) (step_length w (.dict t))
      | make g =>
          simp only [step, make, List.mem_append, List.mem_singleton] at hd
          rcases hd with hd | hd
          · exact Nat.lt_of_lt_of_le (hw d hd) (step_length w (.make g))
          · cases g with
            | none => subst hd; simp [step, make, returnDefaultIfNoneElseItself]
            | some e =>
                cases hd
                exact Nat.lt_of_lt_of_le (h [] e l rfl) (step_length w (.make (some e)))
      | setProperty o m v =>
          refine Nat.lt_of_lt_of_le (hw d ?_) (step_length w (.setProperty o m v))
          simp only [step, setProperty] at hd
          split at hd
          · exact hd
          · exact hd
      | store e m v => exact Nat.lt_of_lt_of_le (hw d hd) (step_length w (.store e m v))

/-- Two objects with one dictionary and one with its own: a history that meets the hypotheses. -/
example : let before : List (PropStep Nat) := [.dict [("a", 1)], .make (some 0), .make none]
    let after : List (PropStep Nat) := [.make (some 0), .setProperty 1 "a" 3]
    GivenExist before ∧ (history before).objects[0]? = some 0 ∧ 0 < (history before).dicts.length ∧
    (history (before ++ .setProperty 0 "a" 2 :: after)).objects[2]? = some 0 ∧
    (∀ s ∈ after, ¬ WritesTo (history (before ++ .setProperty 0 "a" 2 :: after)).objects 0 "a" s) ∧
    (history (before ++ .setProperty 0 "a" 2 :: after)).getPropertyValue 1 "a" = some (some 3) := by
  refine ⟨?_, by decide, by decide, by decide, ?_, by decide⟩
  · intro a d b h
    rcases a with _ | ⟨x, _ | ⟨y, _ | ⟨z, a⟩⟩⟩
    · simp at h
    · simp at h; obtain ⟨rfl, rfl, _⟩ := h; decide
    · simp at h
    · simp at h
  · intro s hs
    simp only [List.mem_cons, List.not_mem_nil, or_false] at hs
    rcases hs with rfl | rfl
    · exact fun h => h
    · intro h
      exact absurd h.1 (by decide)

theorem posConfig_eq (a b : PosConfig) : a.py.eq b.py = true ↔ a = b := by
  cases a <;> cases b <;>
    simp [PosConfig.py, argStringPy, attrs, PyVal.eq, PyDict.length, PyDict.sub, PyDict.get?, std_eq]

/-- C58. Prefixes of invocations compare equal exactly if they have the same contents, and never to a parsed
invocation. -/
theorem C58_prefix (a b : CommandInvocationPrefix) (i : CommandInvocationInitial) :
    (a.py.eq b.py = true ↔ a = b) ∧ a.py.eq i.py = false := by
  constructor
  · cases a; cases b
    simp [CommandInvocationPrefix.py, attrs, PyVal.eq, PyDict.length, PyDict.sub, PyDict.get?,
      listOf_eq (fun a _ b _ => flagOption_eq a b), listOf_eq (fun a _ b _ => posConfig_eq a b)]
  · cases a; cases i
    simp [CommandInvocationPrefix.py, CommandInvocationInitial.py, PyVal.eq]

example : (CommandInvocationPrefix.py ⟨"head", [.option "-n" "1"], []⟩).eq (CommandInvocationPrefix.py ⟨"head", [.option "-n" "1"], []⟩) = true ∧
    (CommandInvocationPrefix.py ⟨"head", [], [.fileName "f"]⟩).eq (CommandInvocationPrefix.py ⟨"head", [], [.argString "f"]⟩) = false := by
  constructor
  · exact (C58_prefix _ _ ⟨"", [], []⟩).1.2 rfl
  · rw [← Bool.not_eq_true, (C58_prefix _ _ ⟨"", [], []⟩).1]; simp

end PashAnn
