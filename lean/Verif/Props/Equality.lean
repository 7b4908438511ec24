import Verif.Lemmas.PyObj
import Verif.Props.Vars

/-! Property C58: equality of invocations, as Python computes it. -/

namespace PashAnn

/-- C58. `==` is reflexive. -/
theorem C58_refl (v : PyVal) (h : v.wf) : v.eq v = true := by
  refine PyVal.ind (P := fun v => v.wf → v.eq v = true) (Q := fun l => l.wf → l.eq l = true)
    ?_ ?_ ?_ ?_ ?_ ?_ ?_ ?_ ?_ ?_ v h
  · intro _; rfl
  · intro i _; simp [PyVal.eq]
  · intro s _; simp [PyVal.eq]
  · intro c m _; simp [PyVal.eq]
  · intro i _; simp [PyVal.eq]
  · intro l ih hw; rw [PyVal.wf] at hw; rw [PyVal.eq]; exact ih hw
  · intro d ih hw
    rw [PyVal.wf] at hw
    rw [PyVal.eq, PyDict.eq_iff hw hw]
    refine ⟨fun _ => .rfl, fun k v w hv hw' => ?_⟩
    rw [hv] at hw'; cases hw'
    exact ih.get hv (PyDict.get?_wf hw hv)
  · intro c d ih hw
    rw [PyVal.wf] at hw
    rw [PyVal.eq, beq_self_eq_true, Bool.true_and, PyDict.eq_iff hw hw]
    refine ⟨fun _ => .rfl, fun k v w hv hw' => ?_⟩
    rw [hv] at hw'; cases hw'
    exact ih.get hv (PyDict.get?_wf hw hv)
  · intro _; rfl
  · intro v l hv hl hw
    rw [PyList.wf] at hw
    rw [PyList.eq, hv hw.1, hl hw.2]; rfl

/-- C58. `==` is symmetric. -/
theorem C58_symm (v w : PyVal) (hv : v.wf) (hw : w.wf) (h : v.eq w = true) : w.eq v = true := by
  have hdict : ∀ d e : PyDict, d.All (fun v => ∀ w, v.wf → w.wf → v.eq w = true → w.eq v = true) → d.wf → e.wf →
      (d.length == e.length && d.sub e) = true → (e.length == d.length && e.sub d) = true := by
    intro d e ih hd he h
    rw [PyDict.eq_iff hd he] at h
    rw [PyDict.eq_iff he hd]
    exact ⟨fun k => (h.1 k).symm, fun k v w hv hw =>
      ih.get hw _ (PyDict.get?_wf hd hw) (PyDict.get?_wf he hv) (h.2 k w v hw hv)⟩
  refine PyVal.ind (P := fun v => ∀ w, v.wf → w.wf → v.eq w = true → w.eq v = true)
    (Q := fun l => ∀ m, l.wf → m.wf → l.eq m = true → m.eq l = true) ?_ ?_ ?_ ?_ ?_ ?_ ?_ ?_ ?_ ?_ v w hv hw h
  · intro w _ _ h; cases w <;> simp_all [PyVal.eq]
  · intro i w _ _ h; cases w <;> simp_all [PyVal.eq]
  · intro i w _ _ h; cases w <;> simp_all [PyVal.eq]
  · intro c m w _ _ h; cases w <;> simp_all [PyVal.eq]
  · intro i w _ _ h; cases w <;> simp_all [PyVal.eq]
  · intro l ih w hv hw h
    cases w with
    | list m => rw [PyVal.eq] at h ⊢; exact ih m hv hw h
    | _ => simp [PyVal.eq] at h
  · intro d ih w hv hw h
    cases w with
    | dict e => rw [PyVal.eq] at h ⊢; exact hdict d e ih hv hw h
    | _ => simp [PyVal.eq] at h
  · intro c d ih w hv hw h
    cases w with
    | obj c' e =>
        rw [PyVal.eq, Bool.and_eq_true, beq_iff_eq] at h
        rw [PyVal.eq, Bool.and_eq_true, beq_iff_eq]
        exact ⟨h.1.symm, hdict d e ih hv hw h.2⟩
    | _ => simp [PyVal.eq] at h
  · intro m _ _ h; cases m <;> simp_all [PyList.eq]
  · intro v l ihv ihl m hv hw h
    cases m with
    | nil => simp [PyList.eq] at h
    | cons w m =>
        rw [PyList.wf] at hv hw
        rw [PyList.eq, Bool.and_eq_true] at h ⊢
        exact ⟨ihv w hv.1 hw.1 h.1, ihl m hv.2 hw.2 h.2⟩

/-- Values without parts. -/
def PyVal.isScalar : PyVal → Bool
  | .list _ => false
  | .dict _ => false
  | .obj _ _ => false
  | _ => true

theorem scalar {v w : PyVal} (hs : v.isScalar = true) (h : v.eq w = true) : v = w := by
  cases v <;> cases w <;> simp_all [PyVal.eq, PyVal.isScalar]

/-- C58. `==` is transitive. -/
theorem C58_trans (u v w : PyVal) (hu : u.wf) (hv : v.wf) (hw : w.wf) (h1 : u.eq v = true) (h2 : v.eq w = true) :
    u.eq w = true := by
  have hdict : ∀ d e f : PyDict,
      d.All (fun u => ∀ v w : PyVal, u.wf → v.wf → w.wf → u.eq v = true → v.eq w = true → u.eq w = true) →
      d.wf → e.wf → f.wf → (d.length == e.length && d.sub e) = true → (e.length == f.length && e.sub f) = true →
      (d.length == f.length && d.sub f) = true := by
    intro d e f ih hd he hf h1 h2
    rw [PyDict.eq_iff hd he] at h1
    rw [PyDict.eq_iff he hf] at h2
    rw [PyDict.eq_iff hd hf]
    refine ⟨fun k => (h2.1 k).trans (h1.1 k), fun k u w hu hw => ?_⟩
    obtain ⟨v, hv⟩ := PyDict.get?_mem.1 ((h1.1 k).2 (PyDict.get?_mem.2 ⟨u, hu⟩))
    exact ih.get hu _ _ (PyDict.get?_wf hd hu) (PyDict.get?_wf he hv) (PyDict.get?_wf hf hw) (h1.2 k u v hu hv)
      (h2.2 k v w hv hw)
  refine PyVal.ind
    (P := fun u => ∀ v w : PyVal, u.wf → v.wf → w.wf → u.eq v = true → v.eq w = true → u.eq w = true)
    (Q := fun u => ∀ v w : PyList, u.wf → v.wf → w.wf → u.eq v = true → v.eq w = true → u.eq w = true)
    ?_ ?_ ?_ ?_ ?_ ?_ ?_ ?_ ?_ ?_ u v w hu hv hw h1 h2
  · intro v w _ _ _ h1 h2; cases v <;> first | exact h2 | (simp [PyVal.eq] at h1)
  · intro i v w _ _ _ h1 h2; rw [scalar rfl h1]; exact h2
  · intro i v w _ _ _ h1 h2; rw [scalar rfl h1]; exact h2
  · intro c m v w _ _ _ h1 h2; rw [scalar rfl h1]; exact h2
  · intro i v w _ _ _ h1 h2; rw [scalar rfl h1]; exact h2
  · intro l ih v w hu hv hw h1 h2
    cases v with
    | list m =>
        cases w with
        | list n => rw [PyVal.eq] at h1 h2 ⊢; exact ih m n hu hv hw h1 h2
        | _ => simp [PyVal.eq] at h2
    | _ => simp [PyVal.eq] at h1
  · intro d ih v w hu hv hw h1 h2
    cases v with
    | dict e =>
        cases w with
        | dict f => rw [PyVal.eq] at h1 h2 ⊢; exact hdict d e f ih hu hv hw h1 h2
        | _ => simp [PyVal.eq] at h2
    | _ => simp [PyVal.eq] at h1
  · intro c d ih v w hu hv hw h1 h2
    cases v with
    | obj c' e =>
        cases w with
        | obj c'' f =>
            rw [PyVal.eq, Bool.and_eq_true, beq_iff_eq] at h1 h2 ⊢
            exact ⟨h1.1.trans h2.1, hdict d e f ih hu hv hw h1.2 h2.2⟩
        | _ => simp [PyVal.eq] at h2
    | _ => simp [PyVal.eq] at h1
  · intro v w _ _ _ h1 h2; cases v <;> first | exact h2 | (simp [PyList.eq] at h1)
  · intro a l iha ihl v w hu hv hw h1 h2
    cases v with
    | nil => simp [PyList.eq] at h1
    | cons b m =>
        cases w with
        | nil => simp [PyList.eq] at h2
        | cons c n =>
            rw [PyList.wf] at hu hv hw
            rw [PyList.eq, Bool.and_eq_true] at h1 h2 ⊢
            exact ⟨iha b c hu.1 hv.1 hw.1 h1.1 h2.1, ihl m n hu.2 hv.2 hw.2 h1.2 h2.2⟩

/-! Equality of the represented values. -/

theorem listOf_eq {α : Type} {enc : α → PyVal} {l m : List α}
    (h : ∀ a ∈ l, ∀ b ∈ m, (enc a).eq (enc b) = true ↔ a = b) :
    (PyVal.listOf enc l).eq (.listOf enc m) = true ↔ l = m := by
  rw [PyVal.listOf, PyVal.listOf, PyVal.eq]
  induction l generalizing m with
  | nil => cases m <;> simp [PyList.of, PyList.eq]
  | cons a l ih =>
      cases m with
      | nil => simp [PyList.of, PyList.eq]
      | cons b m =>
          have := ih (m := m) (fun x hx y hy => h x (by simp [hx]) y (by simp [hy]))
          simp [PyList.of, PyList.eq, this, h a (by simp) b (by simp)]

theorem opt_eq {α : Type} {enc : α → PyVal} (hne : ∀ a, enc a ≠ .none)
    (h : ∀ a b, (enc a).eq (enc b) = true ↔ a = b) (a b : Option α) :
    (PyVal.opt enc a).eq (.opt enc b) = true ↔ a = b := by
  cases a with
  | none =>
      cases b with
      | none => simp [PyVal.opt, PyVal.eq]
      | some b =>
          have := hne b
          simp only [PyVal.opt]
          cases hb : enc b <;> simp_all [PyVal.eq]
  | some a =>
      cases b with
      | none =>
          have := hne a
          simp only [PyVal.opt]
          cases ha : enc a <;> simp_all [PyVal.eq]
      | some b => simp [PyVal.opt, h]

theorem str_eq (a b : String) : (PyVal.str a).eq (.str b) = true ↔ a = b := by simp [PyVal.eq]
theorem int_eq (a b : Int) : (PyVal.int a).eq (.int b) = true ↔ a = b := by simp [PyVal.eq]

theorem access_eq (a b : AccessKind) : a.py.eq b.py = true ↔ a = b := by
  cases a <;> cases b <;> decide
theorem kind_eq (a b : AggregatorKind) : a.py.eq b.py = true ↔ a = b := by
  cases a <;> cases b <;> decide
theorem mkind_eq (a b : MapperSpecKind) : a.py.eq b.py = true ↔ a = b := by
  cases a <;> cases b <;> decide
theorem splitter_eq (a b : Splitter) : a.py.eq b.py = true ↔ a = b := by
  cases a <;> cases b <;> decide
theorem info_eq (a b : AdditionalInfoSplitterToMapper) : a.py.eq b.py = true ↔ a = b := by
  cases a <;> cases b <;> decide
theorem std_eq (a b : StdDescriptor) : a.py.eq b.py = true ↔ a = b := by
  cases a <;> cases b <;> decide
theorem bool_eq (a b : Bool) : (PyVal.bool a).eq (.bool b) = true ↔ a = b := by
  cases a <;> cases b <;> decide

theorem flagOption_eq (a b : FlagOption) : a.py.eq b.py = true ↔ a = b := by
  cases a <;> cases b <;> simp [FlagOption.py, attrs, PyVal.eq, PyDict.length, PyDict.sub, PyDict.get?]

theorem operand_eq (a b : String) : (operandPy a).eq (operandPy b) = true ↔ a = b := by
  simp [operandPy, attrs, PyVal.eq, PyDict.length, PyDict.sub, PyDict.get?]

theorem argString_eq (a b : String) : (argStringPy a).eq (argStringPy b) = true ↔ a = b := by
  simp [argStringPy, attrs, PyVal.eq, PyDict.length, PyDict.sub, PyDict.get?]

theorem file_eq (a b : FileWithIO) : a.py.eq b.py = true ↔ a = b := by
  cases a <;> cases b <;>
    simp [FileWithIO.py, attrs, PyVal.eq, PyDict.length, PyDict.sub, PyDict.get?, access_eq, std_eq]

theorem argWithIO_eq (a b : ArgWithIO) : a.py.eq b.py = true ↔ a = b := by
  cases a with
  | argString s =>
      cases b with
      | argString t => simp [ArgWithIO.py, argString_eq]
      | io f => cases f <;> simp [ArgWithIO.py, argStringPy, FileWithIO.py, PyVal.eq]
  | io f =>
      cases b with
      | argString t => cases f <;> simp [ArgWithIO.py, argStringPy, FileWithIO.py, PyVal.eq]
      | io g => simp [ArgWithIO.py, file_eq]

theorem flagOptionWithIO_eq (a b : FlagOptionWithIO) : a.py.eq b.py = true ↔ a = b := by
  cases a <;> cases b <;>
    simp [FlagOptionWithIO.py, attrs, PyVal.eq, PyDict.length, PyDict.sub, PyDict.get?, argWithIO_eq]

theorem varg_eq (a b : VArg) : a.py.eq b.py = true ↔ a = b := by
  cases a with
  | var v =>
      cases b with
      | var w => simp [VArg.py, PyVal.eq]
      | str t => simp [VArg.py, argStringPy, PyVal.eq]
      | io f => cases f <;> simp [VArg.py, FileWithIO.py, PyVal.eq]
  | str s =>
      cases b with
      | var w => simp [VArg.py, argStringPy, PyVal.eq]
      | str t => simp [VArg.py, argString_eq]
      | io f => cases f <;> simp [VArg.py, argStringPy, FileWithIO.py, PyVal.eq]
  | io f =>
      cases b with
      | var w => cases f <;> simp [VArg.py, FileWithIO.py, PyVal.eq]
      | str t => cases f <;> simp [VArg.py, argStringPy, FileWithIO.py, PyVal.eq]
      | io g => simp [VArg.py, file_eq]

/-- The model's comparison of options is Python's. -/
theorem flagOptionVar_eq (a b : FlagOptionWithIOVar) : a.py.eq b.py = true ↔ a.pyEq b = true := by
  cases a <;> cases b <;>
    simp [FlagOptionWithIOVar.py, FlagOptionWithIOVar.pyEq, attrs, PyVal.eq, PyDict.length, PyDict.sub, PyDict.get?,
      varg_eq]

/-- C58. Parsed invocations compare equal exactly if they have the same contents. -/
theorem C58_initial (a b : CommandInvocationInitial) : a.py.eq b.py = true ↔ a = b := by
  cases a; cases b
  simp [CommandInvocationInitial.py, attrs, PyVal.eq, PyDict.length, PyDict.sub, PyDict.get?,
    listOf_eq (fun a _ b _ => flagOption_eq a b), listOf_eq (fun a _ b _ => operand_eq a b)]

theorem file_ne_none (f : FileWithIO) : f.py ≠ .none := by cases f <;> simp [FileWithIO.py]

/-- C58. Typed invocations compare equal exactly if they have the same contents. -/
theorem C58_with_io (a b : CommandInvocationWithIO) : a.py.eq b.py = true ↔ a = b := by
  cases a; cases b
  simp [CommandInvocationWithIO.py, attrs, PyVal.eq, PyDict.length, PyDict.sub, PyDict.get?,
    listOf_eq (fun a _ b _ => flagOptionWithIO_eq a b), listOf_eq (fun a _ b _ => argWithIO_eq a b),
    opt_eq file_ne_none file_eq]

/-- A store of option objects: `OptionWithIOVar` objects are compared by identity, and an object has one content. -/
abbrev Heap := Nat → String × VArg

/-- The option objects are those of the store. -/
def Heap.Holds (heap : Heap) : FlagOptionWithIOVar → Prop
  | .optionVar oid n a => heap oid = (n, a)
  | _ => True

theorem heap_eq {heap : Heap} {a b : FlagOptionWithIOVar} (ha : heap.Holds a) (hb : heap.Holds b) :
    a.py.eq b.py = true → a = b := by
  rw [flagOptionVar_eq]
  cases a <;> cases b <;> simp only [FlagOptionWithIOVar.pyEq, Heap.Holds] at ha hb ⊢ <;> intro h
  · simpa using h
  · cases h
  · cases h
  · cases h
  · simp only [beq_iff_eq] at h
    subst h
    rw [ha] at hb
    cases hb; rfl
  · cases h
  · cases h
  · cases h
  · simpa using h

theorem heap_eq_iff {heap : Heap} {a b : FlagOptionWithIOVar} (ha : heap.Holds a) (hb : heap.Holds b) :
    a.py.eq b.py = true ↔ a = b := by
  refine ⟨heap_eq ha hb, ?_⟩
  rintro rfl
  rw [flagOptionVar_eq]
  cases a <;> simp [FlagOptionWithIOVar.pyEq]

theorem accessMap_keys (m : AccessMap) : (accessMapPy m).keys = m.map (fun p => PyKey.int p.1) := by
  induction m with
  | nil => rfl
  | cons p m ih => rw [accessMapPy, PyDict.keys, ih]; rfl

theorem access_wf (a : AccessKind) : a.py.wf := by
  cases a <;> simp [AccessKind.py, attrs, PyVal.wf, PyDict.wf, PyDict.keys]

theorem accessMap_wf {m : AccessMap} (h : (m.map Prod.fst).Nodup) : (accessMapPy m).wf := by
  induction m with
  | nil => simp [accessMapPy, PyDict.wf]
  | cons p m ih =>
      simp only [List.map_cons, List.nodup_cons] at h
      rw [accessMapPy, PyDict.wf, accessMap_keys]
      refine ⟨?_, access_wf _, ih h.2⟩
      simp only [List.mem_map, PyKey.int.injEq, not_exists, not_and]
      intro q hq he
      exact h.1 (List.mem_map.2 ⟨q, hq, he⟩)

theorem accessMap_get (m : AccessMap) (k : IOVar) : (accessMapPy m).get? (.int k) = (m.get? k).map AccessKind.py := by
  induction m with
  | nil => rfl
  | cons p m ih =>
      rw [accessMapPy, PyDict.get?, AccessMap.get?, List.lookup]
      by_cases h : p.1 = k
      · simp [h]
      · have : (k == p.1) = false := by simp [Ne.symm h]
        rw [if_neg (by simp [h]), ih, this]; rfl

/-- Access maps compare equal exactly if they are the same map. -/
theorem accessMap_eq {m n : AccessMap} (hm : (m.map Prod.fst).Nodup) (hn : (n.map Prod.fst).Nodup) :
    (PyVal.dict (accessMapPy m)).eq (.dict (accessMapPy n)) = true ↔ ∀ k, m.get? k = n.get? k := by
  rw [PyVal.eq, PyDict.eq_iff (accessMap_wf hm) (accessMap_wf hn)]
  have key : ∀ (m : AccessMap) k, PyKey.int k ∈ (accessMapPy m).keys ↔ ∃ a, m.get? k = some a := by
    intro m k
    rw [PyDict.get?_mem, accessMap_get]
    cases m.get? k <;> simp
  constructor
  · rintro ⟨hk, hv⟩ k
    have hk := hk (.int k)
    rw [key, key] at hk
    cases h1 : m.get? k with
    | none =>
        cases h2 : n.get? k with
        | none => rfl
        | some b => rw [h1, h2] at hk; simp at hk
    | some a =>
        cases h2 : n.get? k with
        | none => rw [h1, h2] at hk; simp at hk
        | some b =>
            have := hv (.int k) a.py b.py (by rw [accessMap_get, h1]; rfl) (by rw [accessMap_get, h2]; rfl)
            rw [access_eq] at this; rw [this]
  · intro h
    refine ⟨fun k => ?_, fun k v w hv hw => ?_⟩
    · cases k with
      | int k => rw [key, key, h]
      | str s => simp [accessMap_keys]
    · cases k with
      | int k =>
          rw [accessMap_get] at hv hw
          rw [h k] at hv
          rw [hv] at hw; cases hw
          cases hn : n.get? k with
          | none => rw [hn] at hv; cases hv
          | some a => rw [hn] at hv; cases hv; exact (access_eq a a).2 rfl
      | str s =>
          have := PyDict.get?_mem.2 ⟨v, hv⟩
          simp [accessMap_keys] at this

/-- The contents of two invocations with variables are the same; the access maps are compared as maps. -/
def SameContents (c d : CommandInvocationWithIOVars) : Prop :=
  c.cmdName = d.cmdName ∧ c.flagOptionList = d.flagOptionList ∧ c.operandList = d.operandList ∧
    c.implicitInput = d.implicitInput ∧ c.implicitOutput = d.implicitOutput ∧
    ∀ k, c.accessMap.get? k = d.accessMap.get? k

theorem int_opt_eq (a b : Option IOVar) : (PyVal.opt .int a).eq (.opt .int b) = true ↔ a = b :=
  opt_eq (fun _ h => by cases h) int_eq a b

/-- C58, for invocations with variables, with options that are the same object or not compared by identity: they
compare equal exactly if they have the same contents. Missing: option objects with the same contents are not the same
object (`C58_options_false`). -/
theorem C58_io_vars_partial (heap : Heap) (c d : CommandInvocationWithIOVars)
    (hc : ∀ x ∈ c.flagOptionList, heap.Holds x) (hd : ∀ x ∈ d.flagOptionList, heap.Holds x)
    (kc : (c.accessMap.map Prod.fst).Nodup) (kd : (d.accessMap.map Prod.fst).Nodup) :
    (c.py.eq d.py = true ↔ SameContents c d) ∧ ((mapperPy c).eq (mapperPy d) = true ↔ SameContents c d) ∧
    ∀ k l, (Aggregator.py ⟨k, c⟩).eq (Aggregator.py ⟨l, d⟩) = true ↔ k = l ∧ SameContents c d := by
  have hl := listOf_eq (fun a ha b hb => heap_eq_iff (hc a ha) (hd b hb))
  have ho := listOf_eq (l := c.operandList) (m := d.operandList) (fun a _ b _ => varg_eq a b)
  have hm := accessMap_eq kc kd
  refine ⟨?_, ?_, fun k l => ?_⟩ <;>
    simp [CommandInvocationWithIOVars.py, mapperPy, Aggregator.py, CommandInvocationWithIOVars.attributes, attrs,
      PyVal.eq, PyDict.length, PyDict.sub, PyDict.get?, SameContents, kind_eq, int_opt_eq] <;>
    simp only [PyVal.eq, Bool.and_eq_true, beq_iff_eq] at hm <;>
    simp [hl, ho, hm]

/-- C58. Invocations of different classes never compare equal, whatever they contain. -/
theorem C58_classes (i : CommandInvocationInitial) (w : CommandInvocationWithIO) (c d e : CommandInvocationWithIOVars)
    (k : AggregatorKind) :
    List.Pairwise (fun a b : PyVal => a.eq b = false) [i.py, w.py, c.py, mapperPy d, Aggregator.py ⟨k, e⟩] := by
  have ne : ∀ {a b : String} {x y : PyDict}, a ≠ b → (PyVal.obj a x).eq (.obj b y) = false := by
    intro a b x y h
    rw [PyVal.eq, beq_eq_false_iff_ne.2 h]; rfl
  simp only [List.pairwise_cons, List.mem_cons, forall_eq_or_imp, List.not_mem_nil, false_imp_iff, implies_true,
    and_true, List.Pairwise.nil]
  exact ⟨⟨ne (by decide), ne (by decide), ne (by decide), ne (by decide)⟩,
    ⟨ne (by decide), ne (by decide), ne (by decide)⟩, ⟨ne (by decide), ne (by decide)⟩, ne (by decide)⟩

/-- The copy `deepcopy` makes (CommandInvocationWithIOVars.py:26): new option objects with the same contents. -/
def copyOption (fresh : Nat → Nat) : FlagOptionWithIOVar → FlagOptionWithIOVar
  | .optionVar oid n a => .optionVar (fresh oid) n a
  | x => x

/-- C58 is false if an option holds a variable: two invocations made from the same arguments, each with its own copy
of the option objects, never compare equal. -/
theorem C58_options_false (c : CommandInvocationWithIOVars) (fresh : Nat → Nat) (hf : ∀ i, fresh i ≠ i)
    (oid : Nat) (n : String) (a : VArg) (h : .optionVar oid n a ∈ c.flagOptionList) :
    c.py.eq { c with flagOptionList := c.flagOptionList.map (copyOption fresh) : CommandInvocationWithIOVars }.py =
      false := by
  rw [← Bool.not_eq_true]
  intro he
  have hl : (PyVal.listOf FlagOptionWithIOVar.py c.flagOptionList).eq
      (.listOf FlagOptionWithIOVar.py (c.flagOptionList.map (copyOption fresh))) = true := by
    simp [CommandInvocationWithIOVars.py, CommandInvocationWithIOVars.attributes, attrs, PyVal.eq, PyDict.length,
      PyDict.sub, PyDict.get?] at he
    exact he.1
  rw [PyVal.listOf, PyVal.listOf, PyVal.eq] at hl
  revert hl h
  generalize c.flagOptionList = l
  intro h hl
  induction l with
  | nil => cases h
  | cons x l ih =>
      simp only [List.map_cons, PyList.of, PyList.eq, Bool.and_eq_true] at hl
      rcases List.mem_cons.1 h with rfl | h
      · have := hl.1
        rw [flagOptionVar_eq] at this
        simp [copyOption, FlagOptionWithIOVar.pyEq] at this
        exact hf oid this.symm
      · exact ih h hl.2

/-! Parallelizers and what they consist of. -/

mutual
/-- The option objects in a transformer are those of the store. -/
def HoldsIn (heap : Heap) : Transformer → Prop
  | .add l => ∀ x ∈ l, heap.Holds x
  | .custom l => ∀ x ∈ l, heap.Holds x
  | .chain ts => HoldsInAll heap ts
  | _ => True
/-- The option objects in all transformers are those of the store. -/
def HoldsInAll (heap : Heap) : List Transformer → Prop
  | [] => True
  | t :: ts => HoldsIn heap t ∧ HoldsInAll heap ts
end

theorem strs_eq (l m : List String) : (PyVal.listOf .str l).eq (.listOf .str m) = true ↔ l = m :=
  listOf_eq (fun a _ b _ => str_eq a b)

mutual
/-- Transformers compare equal exactly if they are the same. -/
theorem transformer_eq (heap : Heap) : ∀ (t u : Transformer), HoldsIn heap t → HoldsIn heap u →
    (t.py.eq u.py = true ↔ t = u)
  | .seq, u, _, _ => by cases u <;> simp [Transformer.py, attrs, PyVal.eq, PyDict.length, PyDict.sub]
  | .empty, u, _, _ => by cases u <;> simp [Transformer.py, attrs, PyVal.eq, PyDict.length, PyDict.sub]
  | .remove l, u, _, _ => by
      cases u <;> simp [Transformer.py, attrs, PyVal.eq, PyDict.length, PyDict.sub, PyDict.get?, strs_eq]
  | .filter l, u, _, _ => by
      cases u <;> simp [Transformer.py, attrs, PyVal.eq, PyDict.length, PyDict.sub, PyDict.get?, strs_eq]
  | .add l, u, ht, hu => by
      cases u with
      | add m =>
          rw [HoldsIn] at ht hu
          have := listOf_eq (fun a ha b hb => heap_eq_iff (ht a ha) (hu b hb))
          simp [Transformer.py, attrs, PyVal.eq, PyDict.length, PyDict.sub, PyDict.get?, this]
      | _ => simp [Transformer.py, PyVal.eq]
  | .custom l, u, ht, hu => by
      cases u with
      | custom m =>
          rw [HoldsIn] at ht hu
          have := listOf_eq (fun a ha b hb => heap_eq_iff (ht a ha) (hu b hb))
          simp [Transformer.py, attrs, PyVal.eq, PyDict.length, PyDict.sub, PyDict.get?, this]
      | _ => simp [Transformer.py, PyVal.eq]
  | .chain ts, u, ht, hu => by
      cases u with
      | chain us =>
          rw [HoldsIn] at ht hu
          have := transformers_eq heap ts us ht hu
          simp [Transformer.py, attrs, PyVal.eq, PyDict.length, PyDict.sub, PyDict.get?, this]
      | _ => simp [Transformer.py, PyVal.eq]
/-- Chains compare equal exactly if they are the same. -/
theorem transformers_eq (heap : Heap) : ∀ (ts us : List Transformer), HoldsInAll heap ts → HoldsInAll heap us →
    ((Transformer.pyAll ts).eq (Transformer.pyAll us) = true ↔ ts = us)
  | [], us, _, _ => by cases us <;> simp [Transformer.pyAll, PyList.eq]
  | t :: ts, us, ht, hu => by
      cases us with
      | nil => simp [Transformer.pyAll, PyList.eq]
      | cons u us =>
          rw [HoldsInAll] at ht hu
          simp [Transformer.pyAll, PyList.eq, transformer_eq heap t u ht.1 hu.1, transformers_eq heap ts us ht.2 hu.2]
end

/-- The transformers of a parallelizer. -/
def transformersOf (p : Parallelizer) : List Transformer :=
  p.coreMapperSpec.transformer :: match p.coreAggregatorSpec with
    | .funcTransformer _ t _ => [t]
    | _ => []

theorem str_opt_eq (a b : Option String) : (PyVal.opt .str a).eq (.opt .str b) = true ↔ a = b :=
  opt_eq (fun _ h => by cases h) str_eq a b

/-- C58. Parallelizers compare equal exactly if all their parts are the same; the same for mapper and aggregator
specifications. -/
theorem C58_parallelizer (heap : Heap) (p q : Parallelizer) (hp : HoldsInAll heap (transformersOf p))
    (hq : HoldsInAll heap (transformersOf q)) :
    (p.py.eq q.py = true ↔ p = q) ∧
    (p.coreMapperSpec.py.eq q.coreMapperSpec.py = true ↔ p.coreMapperSpec = q.coreMapperSpec) ∧
    (p.coreAggregatorSpec.py.eq q.coreAggregatorSpec.py = true ↔ p.coreAggregatorSpec = q.coreAggregatorSpec) := by
  obtain ⟨s, m, a, i, n⟩ := p
  obtain ⟨s', m', a', i', n'⟩ := q
  simp only [transformersOf] at hp hq ⊢
  have hm : m.py.eq m'.py = true ↔ m = m' := by
    rw [HoldsInAll] at hp hq
    have := transformer_eq heap _ _ hp.1 hq.1
    cases m; cases m'
    simp [MapperSpec.py, attrs, PyVal.eq, PyDict.length, PyDict.sub, PyDict.get?, this, mkind_eq, str_opt_eq, bool_eq]
  have ha : a.py.eq a'.py = true ↔ a = a' := by
    cases a <;> cases a' <;>
      simp [AggregatorSpec.py, attrs, PyVal.eq, PyDict.length, PyDict.sub, PyDict.get?, kind_eq, bool_eq]
    · simp only [HoldsInAll, and_true] at hp hq
      rw [transformer_eq heap _ _ hp.2 hq.2]
      exact fun _ => And.comm
    · exact fun _ => And.comm
  refine ⟨?_, hm, ha⟩
  simp [Parallelizer.py, attrs, PyVal.eq, PyDict.length, PyDict.sub, PyDict.get?, splitter_eq, info_eq, hm, ha, Int.ofNat_inj]

/-! The hypotheses are met. -/

example : (CommandInvocationInitial.py ⟨"grep", [.option "-f" "p", .flag "-v"], ["-"]⟩).wf := by
  simp [CommandInvocationInitial.py, attrs, PyVal.wf, PyDict.wf, PyDict.keys, PyVal.listOf, PyList.of, PyList.wf,
    FlagOption.py, operandPy]
example : (CommandInvocationWithIOVars.py ⟨"cat", [.optionVar 3 "-x" (.var 4)], [.var 1], none, some 2,
    [(1, .streamInput), (2, .streamOutput)]⟩).eq (CommandInvocationWithIOVars.py ⟨"cat", [.optionVar 3 "-x" (.var 4)],
    [.var 1], none, some 2, [(2, .streamOutput), (1, .streamInput)]⟩) = true := by decide
example : Heap.Holds (fun _ => ("-x", .var 4)) (.optionVar 3 "-x" (.var 4)) := rfl

end PashAnn
