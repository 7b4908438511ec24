import Verif.Model.Show
import Verif.Spec.Show
import Verif.Props.Equality
import Verif.Props.Stores

/-! Property C113: what is printed is what is compared. -/

namespace PashAnn
open Text

theorem texts_attrs (addr : Nat → String) : ∀ l : List (String × PyVal),
    (attrs l).texts addr = l.map fun p => (p.1, if p.1 = "is_implemented" then p.2.truthText else p.2.text addr)
  | [] => rfl
  | p :: l => by
      rw [attrs, PyDict.texts, texts_attrs addr l]
      simp [PyKey.str.injEq, PyKey.name]

/-- The elements of a list of objects. -/
theorem texts_list (addr : Nat → String) {α : Type} (enc : α → PyVal) (f : α → String) (h : ∀ a, (enc a).text addr = f a)
    (hs : ∀ a s, enc a ≠ .str s) : ∀ l : List α, (PyList.of (l.map enc)).texts addr = l.map f
  | [] => rfl
  | a :: l => by
      rw [List.map_cons, PyList.of, PyList.texts, texts_list addr enc f h hs l, List.map_cons]
      congr 1
      unfold reprOr
      split
      · next s he => exact absurd he (hs a s)
      · exact h a

/-- The elements of a list of strings. -/
theorem texts_strings (addr : Nat → String) : ∀ l : List String, (PyList.of (l.map .str)).texts addr = l.map strRepr
  | [] => rfl
  | a :: l => by rw [List.map_cons, PyList.of, PyList.texts, texts_strings addr l]; rfl

theorem listOf_text (addr : Nat → String) {α : Type} (enc : α → PyVal) (f : α → String) (h : ∀ a, (enc a).text addr = f a)
    (hs : ∀ a s, enc a ≠ .str s) (l : List α) : (PyVal.listOf enc l).text addr = listRepr (l.map f) := by
  rw [PyVal.listOf, PyVal.text, texts_list addr enc f h hs]

theorem strings_text (addr : Nat → String) (l : List String) : (PyVal.listOf .str l).text addr = listRepr (l.map strRepr) := by
  rw [PyVal.listOf, PyVal.text, texts_strings addr]

theorem bool_text (b : Bool) : (PyVal.bool b).truthText = truth b := by
  cases b <;> rfl

theorem objectText_std {c : String} (h : c ≠ "Operand" ∧ c ≠ "Splitter" ∧ c ≠ "Parallelizer") (as : List (String × String)) :
    objectText c as = classRepr (classPath c) as := by
  rw [objectText, if_neg h.1, if_neg h.2.1, if_neg h.2.2]; rfl

theorem append_class (a b : String) : "<class '" ++ (a ++ b) = "<class '" ++ a ++ b := by rw [String.append_assoc]

theorem standardRepr_class (c : String) (as : List (String × String)) :
    standardRepr c as = classRepr ("pash_annotations.datatypes." ++ c) as := by
  have h : "<class 'pash_annotations.datatypes." = "<class '" ++ "pash_annotations.datatypes." := by decide +kernel
  rw [standardRepr, classRepr, h]
  simp only [String.append_assoc]

theorem access_text (addr : Nat → String) (a : AccessKind) : a.py.text addr = accessKind a := by
  cases a <;>
    rw [AccessKind.py, PyVal.text, objectText_std (by decide), texts_attrs, accessKind, standardRepr_class] <;> rfl

theorem flagOption_text (addr : Nat → String) (a : FlagOption) : a.py.text addr = flagOption a := by
  cases a with
  | flag n =>
      rw [FlagOption.py, PyVal.text, objectText_std (by decide), texts_attrs, flagOption, standardRepr_class]
      rfl
  | option n a =>
      rw [FlagOption.py, PyVal.text, objectText_std (by decide), texts_attrs, flagOption, standardRepr_class]
      rfl

theorem std_text (addr : Nat → String) (a : StdDescriptor) : a.py.text addr = stdDescriptor a := by
  cases a <;> rfl

theorem operand_text (addr : Nat → String) (s : String) : (operandPy s).text addr = s := rfl

theorem file_text (addr : Nat → String) (a : FileWithIO) : a.py.text addr = fileWithIO a := by
  cases a with
  | file n k =>
      rw [FileWithIO.py, PyVal.text, objectText_std (by decide), texts_attrs, fileWithIO, standardRepr_class, ← access_text addr]
      rfl
  | std d k =>
      rw [FileWithIO.py, PyVal.text, objectText_std (by decide), texts_attrs, fileWithIO, standardRepr_class, ← access_text addr,
        ← std_text addr]
      rfl

theorem argWithIO_text (addr : Nat → String) (a : ArgWithIO) : a.py.text addr = argWithIO a := by
  cases a with
  | argString s =>
      rw [ArgWithIO.py, argStringPy, PyVal.text, objectText_std (by decide), texts_attrs, argWithIO, standardRepr_class]
      rfl
  | io f => exact file_text addr f

theorem flagOptionWithIO_text (addr : Nat → String) (a : FlagOptionWithIO) : a.py.text addr = flagOptionWithIO a := by
  cases a with
  | flag n =>
      rw [FlagOptionWithIO.py, PyVal.text, objectText_std (by decide), texts_attrs, flagOptionWithIO, standardRepr_class]
      rfl
  | option n a =>
      rw [FlagOptionWithIO.py, PyVal.text, objectText_std (by decide), texts_attrs, flagOptionWithIO, standardRepr_class,
        ← argWithIO_text addr]
      rfl

theorem implicit_text (addr : Nat → String) (a : Option FileWithIO) : (PyVal.opt FileWithIO.py a).text addr = implicit a := by
  cases a with
  | none => rfl
  | some f => exact file_text addr f

theorem flagOption_ne (a : FlagOption) (s : String) : a.py ≠ .str s := by cases a <;> simp [FlagOption.py]
theorem flagOptionWithIO_ne (a : FlagOptionWithIO) (s : String) : a.py ≠ .str s := by cases a <;> simp [FlagOptionWithIO.py]
theorem flagOptionVar_ne (a : FlagOptionWithIOVar) (s : String) : a.py ≠ .str s := by
  cases a <;> simp [FlagOptionWithIOVar.py]
theorem argWithIO_ne (a : ArgWithIO) (s : String) : a.py ≠ .str s := by
  rcases a with _ | (_ | _) <;> simp [ArgWithIO.py, argStringPy, FileWithIO.py]
theorem transformer_ne (t : Transformer) (s : String) : t.py ≠ .str s := by cases t <;> simp [Transformer.py]

theorem initial_text (addr : Nat → String) (c : CommandInvocationInitial) : c.py.text addr = initial c := by
  have h1 := listOf_text addr FlagOption.py flagOption (flagOption_text addr) flagOption_ne c.flagOptionList
  have h2 := listOf_text addr operandPy id (operand_text addr) (by simp [operandPy]) c.operandList
  rw [List.map_id] at h2
  rw [CommandInvocationInitial.py, PyVal.text, objectText_std (by decide), texts_attrs, initial, standardRepr_class, ← h1, ← h2]
  rfl

theorem withIO_text (addr : Nat → String) (c : CommandInvocationWithIO) : c.py.text addr = withIO c := by
  have h1 := listOf_text addr FlagOptionWithIO.py flagOptionWithIO (flagOptionWithIO_text addr) flagOptionWithIO_ne c.flagOptionList
  have h2 := listOf_text addr ArgWithIO.py argWithIO (argWithIO_text addr) argWithIO_ne c.operandList
  rw [CommandInvocationWithIO.py, PyVal.text, objectText_std (by decide), texts_attrs, withIO, standardRepr_class, ← h1, ← h2,
    ← implicit_text addr, ← implicit_text addr]
  rfl

/-- What is shown for an option in a plan. -/
def otherText (addr : Nat → String) (x : FlagOptionWithIOVar) : String := x.py.text addr

theorem flagOptionVar_text (addr : Nat → String) (a : FlagOptionWithIOVar) :
    a.py.text addr = flagOptionVar (otherText addr) a := by
  cases a with
  | flag n =>
      rw [FlagOptionWithIOVar.py, PyVal.text, objectText_std (by decide), texts_attrs, flagOptionVar, standardRepr_class]
      rfl
  | _ => rfl

mutual
theorem transformer_text (addr : Nat → String) : ∀ t : Transformer, t.py.text addr = transformer (otherText addr) t
  | .seq => by
      rw [Transformer.py, PyVal.text, objectText_std (by decide), texts_attrs, transformer]; rfl
  | .add l => by
      rw [Transformer.py, PyVal.text, objectText_std (by decide), texts_attrs, transformer,
        ← listOf_text addr _ _ (flagOptionVar_text addr) flagOptionVar_ne]; rfl
  | .remove l => by
      rw [Transformer.py, PyVal.text, objectText_std (by decide), texts_attrs, transformer, ← strings_text addr]; rfl
  | .filter l => by
      rw [Transformer.py, PyVal.text, objectText_std (by decide), texts_attrs, transformer, ← strings_text addr]; rfl
  | .empty => by
      rw [Transformer.py, PyVal.text, objectText_std (by decide), texts_attrs, transformer]; rfl
  | .custom l => by
      rw [Transformer.py, PyVal.text, objectText_std (by decide), texts_attrs, transformer,
        ← listOf_text addr _ _ (flagOptionVar_text addr) flagOptionVar_ne]; rfl
  | .chain ts => by
      rw [Transformer.py, PyVal.text, objectText_std (by decide), texts_attrs, transformer, ← transformers_text addr ts]; rfl
theorem transformers_text (addr : Nat → String) : ∀ ts : List Transformer,
    (Transformer.pyAll ts).texts addr = transformers (otherText addr) ts
  | [] => by rw [Transformer.pyAll, PyList.texts, transformers]
  | t :: ts => by
      rw [Transformer.pyAll, PyList.texts, transformers, transformers_text addr ts]
      congr 1
      unfold reprOr
      split
      · next s he => exact absurd he (transformer_ne t s)
      · exact transformer_text addr t
end

theorem splitter_text (addr : Nat → String) (s : Splitter) : s.py.text addr = splitter s := by cases s <;> rfl
theorem kind_text (addr : Nat → String) (k : AggregatorKind) : k.py.text addr = aggregatorKind k := by cases k <;> rfl
theorem mapperKind_text (addr : Nat → String) (k : MapperSpecKind) : k.py.text addr = mapperKind k := by cases k <;> rfl
theorem mapperName_text (addr : Nat → String) (n : Option String) : (PyVal.opt .str n).text addr = mapperName n := by
  cases n <;> rfl

theorem mapperSpec_text (addr : Nat → String) (m : MapperSpec) : m.py.text addr = mapperSpec (otherText addr) m := by
  rw [MapperSpec.py, PyVal.text, objectText_std (by decide), texts_attrs, mapperSpec, ← mapperKind_text addr,
    ← mapperName_text addr, ← transformer_text addr, ← bool_text]
  rfl

theorem aggregatorSpec_text (addr : Nat → String) (a : AggregatorSpec) :
    a.py.text addr = aggregatorSpec (otherText addr) a := by
  cases a with
  | nonFunc k b =>
      rw [AggregatorSpec.py, PyVal.text, objectText_std (by decide), texts_attrs, aggregatorSpec, ← kind_text addr, ← bool_text]
      rfl
  | funcTransformer k t b =>
      rw [AggregatorSpec.py, PyVal.text, objectText_std (by decide), texts_attrs, aggregatorSpec, ← kind_text addr, ← bool_text,
        ← transformer_text addr]
      rfl
  | funcString k s b =>
      rw [AggregatorSpec.py, PyVal.text, objectText_std (by decide), texts_attrs, aggregatorSpec, ← kind_text addr, ← bool_text]
      rfl

theorem plan_text (a b c d e : String) : objectText "Parallelizer" [("splitter", a), ("core_mapper_spec", b),
      ("core_aggregator_spec", c), ("info_splitter_mapper", d), ("info_mapper_aggregator", e)] =
      "Parallizer: \n" ++ "splitter: " ++ a ++ " \n" ++ "mapper attr: " ++ b ++ " \n" ++ "aggregator attr: " ++ c ++ " \n" := by
  rw [objectText, if_neg (by decide), if_neg (by decide), if_pos rfl]
  have h1 : shownAttribute [("splitter", a), ("core_mapper_spec", b), ("core_aggregator_spec", c), ("info_splitter_mapper", d),
      ("info_mapper_aggregator", e)] "splitter" = a := by simp [shownAttribute, List.lookup]
  have h2 : shownAttribute [("splitter", a), ("core_mapper_spec", b), ("core_aggregator_spec", c), ("info_splitter_mapper", d),
      ("info_mapper_aggregator", e)] "core_mapper_spec" = b := by simp [shownAttribute, List.lookup]
  have h3 : shownAttribute [("splitter", a), ("core_mapper_spec", b), ("core_aggregator_spec", c), ("info_splitter_mapper", d),
      ("info_mapper_aggregator", e)] "core_aggregator_spec" = c := by simp [shownAttribute, List.lookup]
  rw [h1, h2, h3]

theorem parallelizer_attributes (addr : Nat → String) (a b c d e : PyVal) :
    (attrs [("splitter", a), ("core_mapper_spec", b), ("core_aggregator_spec", c), ("info_splitter_mapper", d),
      ("info_mapper_aggregator", e)]).texts addr = [("splitter", a.text addr), ("core_mapper_spec", b.text addr),
      ("core_aggregator_spec", c.text addr), ("info_splitter_mapper", d.text addr), ("info_mapper_aggregator", e.text addr)] := by
  rw [texts_attrs]
  simp

theorem parallelizer_text (addr : Nat → String) (p : Parallelizer) : p.py.text addr = parallelizer (otherText addr) p := by
  unfold Parallelizer.py PyVal.text
  rw [parallelizer_attributes, plan_text, splitter_text, mapperSpec_text, aggregatorSpec_text]
  unfold parallelizer
  rfl

/-- C113. The text of an object is its class followed by every attribute that `==` compares, under its name and with its own text;
this is so for all classes except operands, splitters and plans, which have texts of their own. -/
theorem C113_shows (addr : Nat → String) (c : String) (l : List (String × PyVal))
    (hc : c ≠ "Operand" ∧ c ≠ "Splitter" ∧ c ≠ "Parallelizer") :
    (PyVal.obj c (attrs l)).text addr = PrintedObject (classPath c) (l.map fun p =>
      (p.1, if p.1 = "is_implemented" then p.2.truthText else p.2.text addr)) := by
  have key : ∀ (as : List (String × String)) (s : String),
      as.foldl addAttribute s = s ++ String.join (as.map fun a => "\t " ++ a.1 ++ ": " ++ a.2 ++ "\n") := by
    intro as
    induction as with
    | nil => intro s; simp [String.join]
    | cons a as ih =>
        intro s
        have hj : ∀ (x : String) (xs : List String), String.join (x :: xs) = x ++ String.join xs := by
          intro x xs; simp [String.join_cons]
        rw [List.foldl_cons, ih, List.map_cons, hj, addAttribute]
        simp only [String.append_assoc]
  rw [PyVal.text, objectText_std hc, texts_attrs, classRepr, key, PrintedObject]
  cases l with
  | nil =>
      rw [if_neg (by simp), if_pos (by simp)]
      simp [String.append_assoc]
  | cons p l =>
      rw [if_pos (by simp), if_neg (by simp)]
      have : (": \n" : String) = ": " ++ "\n" := by decide +kernel
      rw [this]
      simp only [String.append_assoc]

/-- C113. The texts written down class by class are the texts of the objects that `==` compares: of parsed invocations, typed
invocations, mapper and aggregator specifications, and plans. -/
theorem C113_texts (addr : Nat → String) :
    (∀ c : CommandInvocationInitial, c.py.text addr = initial c) ∧
    (∀ c : CommandInvocationWithIO, c.py.text addr = withIO c) ∧
    (∀ m : MapperSpec, m.py.text addr = mapperSpec (otherText addr) m) ∧
    (∀ a : AggregatorSpec, a.py.text addr = aggregatorSpec (otherText addr) a) ∧
    (∀ p : Parallelizer, p.py.text addr = parallelizer (otherText addr) p) :=
  ⟨initial_text addr, withIO_text addr, mapperSpec_text addr, aggregatorSpec_text addr, parallelizer_text addr⟩

/-- C113. Equal invocations, prefixes and plans print the same text. -/
theorem C113_equal (addr : Nat → String) :
    (∀ a b : CommandInvocationInitial, a.py.eq b.py = true → a.py.text addr = b.py.text addr) ∧
    (∀ a b : CommandInvocationWithIO, a.py.eq b.py = true → a.py.text addr = b.py.text addr) ∧
    (∀ a b : CommandInvocationPrefix, a.py.eq b.py = true → a.py.text addr = b.py.text addr) ∧
    (∀ (heap : Heap) (p q : Parallelizer), HoldsInAll heap (transformersOf p) → HoldsInAll heap (transformersOf q) →
      p.py.eq q.py = true → p.py.text addr = q.py.text addr) :=
  ⟨fun a b h => by rw [(C58_initial a b).1 h], fun a b h => by rw [(C58_with_io a b).1 h],
    fun a b h => by rw [(C58_prefix a b ⟨"", [], []⟩).1.1 h],
    fun heap p q hp hq h => by rw [(C58_parallelizer heap p q hp hq).1.1 h]⟩

theorem flagOptionVar_py {a b : FlagOptionWithIOVar} (h : a.py.eq b.py = true) : a.py = b.py := by
  rw [flagOptionVar_eq] at h
  cases a <;> cases b <;> simp_all [FlagOptionWithIOVar.pyEq, FlagOptionWithIOVar.py]

theorem listOf_py {α : Type} {enc : α → PyVal} (he : ∀ a b, (enc a).eq (enc b) = true → enc a = enc b) :
    ∀ l m : List α, (PyVal.listOf enc l).eq (.listOf enc m) = true → PyVal.listOf enc l = .listOf enc m
  | [], [], _ => rfl
  | [], b :: m, h => by simp [PyVal.listOf, PyList.of, PyVal.eq, PyList.eq] at h
  | a :: l, [], h => by simp [PyVal.listOf, PyList.of, PyVal.eq, PyList.eq] at h
  | a :: l, b :: m, h => by
      simp only [PyVal.listOf, List.map_cons, PyList.of, PyVal.eq, PyList.eq, Bool.and_eq_true] at h
      have := listOf_py he l m (by simpa [PyVal.listOf, PyVal.eq] using h.2)
      simp only [PyVal.listOf, PyVal.list.injEq] at this ⊢
      rw [List.map_cons, List.map_cons, PyList.of, PyList.of, he a b h.1, this]

theorem accessMap_order : ∀ {m n : AccessMap}, (m.map Prod.fst).Nodup → m.map Prod.fst = n.map Prod.fst →
    (∀ k, m.get? k = n.get? k) → m = n
  | [], [], _, _, _ => rfl
  | [], q :: n, _, h, _ => by simp at h
  | p :: m, [], _, h, _ => by simp at h
  | (k, a) :: m, (k', b) :: n, hn, h, hg => by
      simp only [List.map_cons, List.cons.injEq] at h
      obtain ⟨rfl, h⟩ := h
      simp only [List.map_cons, List.nodup_cons] at hn
      have h1 := hg k
      simp [AccessMap.get?, List.lookup] at h1
      subst h1
      have := accessMap_order (m := m) (n := n) hn.2 h (fun j => by
        have hj := hg j
        simp only [AccessMap.get?, List.lookup] at hj ⊢
        by_cases e : j = k
        · subst e
          have h2 : ∀ l : AccessMap, j ∉ l.map Prod.fst → List.lookup j l = none := by
            intro l hl
            rw [List.lookup_eq_none_iff]
            intro p hp
            simp only [ne_eq, bne_iff_ne]
            rintro rfl
            exact hl (List.mem_map.2 ⟨p, hp, rfl⟩)
          rw [h2 m hn.1, h2 n (h ▸ hn.1)]
        · have : (j == k) = false := by simp [e]
          rw [this] at hj
          exact hj)
      rw [this]

/-- C113 (refuted, for invocations with variables). After renaming a variable and renaming it back an invocation compares equal to
what it was, but it prints another text, since the text shows the accesses in the order in which they were entered. -/
theorem C113_vars_false (addr : Nat → String) : ∃ c d e : CommandInvocationWithIOVars,
    c.replaceVar (some 0) 2 = .ok d ∧ d.replaceVar (some 2) 0 = .ok e ∧ c.py.eq e.py = true ∧
      c.py.text addr ≠ e.py.text addr := by
  refine ⟨⟨"cat", [], [.var 0], none, some 1, [(0, .streamInput), (1, .streamOutput)]⟩,
    ⟨"cat", [], [.var 2], none, some 1, [(1, .streamOutput), (2, .streamInput)]⟩,
    ⟨"cat", [], [.var 0], none, some 1, [(1, .streamOutput), (0, .streamInput)]⟩, by decide +kernel, by decide +kernel,
    by decide +kernel, ?_⟩
  have h : ∀ c : CommandInvocationWithIOVars, c.flagOptionList = [] → c.operandList = [.var 0] →
      c.py.text addr = c.py.text fun _ => "" := by
    rintro ⟨n, _, _, i, o, m⟩ rfl rfl
    have hm : (PyVal.dict (accessMapPy m)).text addr = (PyVal.dict (accessMapPy m)).text fun _ => "" := by
      have : (accessMapPy m).items addr = (accessMapPy m).items fun _ => "" := by
        induction m with
        | nil => rfl
        | cons p m ih => rw [accessMapPy, PyDict.items, PyDict.items, ih, access_text, access_text]
      rw [PyVal.text, PyVal.text, this]
    have hi : ∀ i : Option IOVar, (PyVal.opt .int i).text addr = (PyVal.opt .int i).text fun _ => "" := by
      intro i; cases i <;> rfl
    rw [CommandInvocationWithIOVars.py, CommandInvocationWithIOVars.attributes, PyVal.text, PyVal.text, texts_attrs, texts_attrs]
    simp only [List.map_cons, List.map_nil, hm, hi]
    rfl
  rw [h _ rfl rfl, h _ rfl rfl]
  decide +kernel

/-- C113 (part: for invocations with variables, mappers and aggregators, the accesses were entered in the same order). Equal ones
print the same text. -/
theorem C113_vars_partial (addr : Nat → String) (c d : CommandInvocationWithIOVars)
    (kc : (c.accessMap.map Prod.fst).Nodup) (ho : c.accessMap.map Prod.fst = d.accessMap.map Prod.fst) :
    (c.py.eq d.py = true → c.py.text addr = d.py.text addr) ∧
    ((mapperPy c).eq (mapperPy d) = true → (mapperPy c).text addr = (mapperPy d).text addr) ∧
    ∀ k l, (Aggregator.py ⟨k, c⟩).eq (Aggregator.py ⟨l, d⟩) = true →
      (Aggregator.py ⟨k, c⟩).text addr = (Aggregator.py ⟨l, d⟩).text addr := by
  have kd : (d.accessMap.map Prod.fst).Nodup := ho ▸ kc
  have hm := accessMap_eq kc kd
  have hl := listOf_py (fun a b => flagOptionVar_py (a := a) (b := b)) c.flagOptionList d.flagOptionList
  have hv := listOf_eq (l := c.operandList) (m := d.operandList) (fun a _ b _ => varg_eq a b)
  have main : c.cmdName = d.cmdName → (PyVal.listOf FlagOptionWithIOVar.py c.flagOptionList).eq
      (.listOf FlagOptionWithIOVar.py d.flagOptionList) = true → c.operandList = d.operandList →
      c.implicitInput = d.implicitInput → c.implicitOutput = d.implicitOutput →
      (∀ k, c.accessMap.get? k = d.accessMap.get? k) → c.attributes = d.attributes := by
    intro h1 h2 h3 h4 h5 h6
    rw [CommandInvocationWithIOVars.attributes, CommandInvocationWithIOVars.attributes, h1, hl h2, h3, h4, h5,
      accessMap_order kc ho h6]
  refine ⟨fun h => ?_, fun h => ?_, fun k l h => ?_⟩
  all_goals
    simp [CommandInvocationWithIOVars.py, mapperPy, Aggregator.py, CommandInvocationWithIOVars.attributes, attrs, PyVal.eq,
      PyDict.length, PyDict.sub, PyDict.get?, kind_eq, int_opt_eq] at h
    simp only [PyVal.eq, Bool.and_eq_true, beq_iff_eq] at hm
    simp only [hv, hm] at h
  · rw [CommandInvocationWithIOVars.py, CommandInvocationWithIOVars.py,
      main h.1 h.2.1 h.2.2.1 h.2.2.2.1 h.2.2.2.2.1 h.2.2.2.2.2]
  · rw [mapperPy, mapperPy, main h.1 h.2.1 h.2.2.1 h.2.2.2.1 h.2.2.2.2.1 h.2.2.2.2.2]
  · rw [Aggregator.py, Aggregator.py, h.1]
    simp only []
    rw [main h.2.1 h.2.2.1 h.2.2.2.1 h.2.2.2.2.1 h.2.2.2.2.2.1 h.2.2.2.2.2.2]

theorem commas_eq : ∀ l : List String, commas l = Separated l
  | [] => rfl
  | [x] => by simp [commas, Separated]
  | x :: y :: l => by
      rw [commas, commas_eq (y :: l), Separated, Separated]
      · simp only [List.map_cons, String.join_cons, String.append_assoc]
      · simp

theorem vars_texts (addr : Nat → String) (c : CommandInvocationWithIOVars) :
    (c.attributes.map fun p => (p.1, if p.1 = "is_implemented" then p.2.truthText else p.2.text addr)) =
      PrintedVars (fun o => o.py.text addr) (fun a => a.py.text addr) accessKind c := by
  have h1 : (PyVal.listOf FlagOptionWithIOVar.py c.flagOptionList).text addr =
      "[" ++ Separated (c.flagOptionList.map fun o => o.py.text addr) ++ "]" := by
    rw [listOf_text addr _ (fun o => o.py.text addr) (fun _ => rfl) (fun a s => by cases a <;> simp [FlagOptionWithIOVar.py]), listRepr,
      commas_eq]
  have h2 : (PyVal.listOf VArg.py c.operandList).text addr = "[" ++ Separated (c.operandList.map fun
      | .var v => toString v
      | a => a.py.text addr) ++ "]" := by
    rw [listOf_text addr _ (fun a => a.py.text addr) (fun _ => rfl) (fun a s => by
      rcases a with _ | _ | f
      · simp [VArg.py]
      · simp [VArg.py, argStringPy]
      · cases f <;> simp [VArg.py, FileWithIO.py]), listRepr, commas_eq]
    have : (c.operandList.map fun a => a.py.text addr) = c.operandList.map fun
        | .var v => toString v
        | a => a.py.text addr := List.map_congr_left fun a _ => by cases a <;> rfl
    rw [this]
  have h3 : ∀ i : Option IOVar, (PyVal.opt .int i).text addr = i.elim "None" toString := by
    intro i; cases i <;> rfl
  have h4 : (PyVal.dict (accessMapPy c.accessMap)).text addr =
      "{" ++ Separated (c.accessMap.map fun p => toString p.1 ++ ": " ++ accessKind p.2) ++ "}" := by
    have : (accessMapPy c.accessMap).items addr = c.accessMap.map fun p => toString p.1 ++ ": " ++ accessKind p.2 := by
      generalize c.accessMap = m
      induction m with
      | nil => rfl
      | cons p m ih =>
          rw [accessMapPy, PyDict.items, ih, List.map_cons, ← access_text addr]
          cases p.2 <;> rfl
    rw [PyVal.text, this, commas_eq]
  simp only [CommandInvocationWithIOVars.attributes, List.map_cons, List.map_nil, PrintedVars, h1, h2, h3, h4]
  rfl

/-- C113. The texts of invocations with variables, mappers and aggregators: the class and all attributes, with the accesses of all
variables in the order in which they were entered. -/
theorem C113_vars_shows (addr : Nat → String) (c : CommandInvocationWithIOVars) (k : AggregatorKind) :
    let attributes := PrintedVars (fun o => o.py.text addr) (fun a => a.py.text addr) accessKind c
    c.py.text addr = PrintedObject (classPath "CommandInvocationWithIOVars") attributes ∧
    (mapperPy c).text addr = PrintedObject (classPath "Mapper") attributes ∧
    (Aggregator.py ⟨k, c⟩).text addr = PrintedObject (classPath "Aggregator") (("kind", k.py.text addr) :: attributes) := by
  refine ⟨?_, ?_, ?_⟩
  · rw [CommandInvocationWithIOVars.py, C113_shows addr _ _ (by decide), vars_texts]
  · rw [mapperPy, C113_shows addr _ _ (by decide), vars_texts]
  · rw [Aggregator.py, C113_shows addr _ _ (by decide), List.map_cons, vars_texts]
    rfl

/-- An invocation with variables, printed. -/
example : (CommandInvocationWithIOVars.py ⟨"cat", [], [.var 7], none, some 1, [(7, .streamInput), (1, .streamOutput)]⟩).text (fun _ => "") =
    "<class 'pash_annotations.datatypes.CommandInvocationWithIOVars.CommandInvocationWithIOVars'>: \n\t cmd_name: cat\n" ++
    "\t flag_option_list: []\n\t operand_list: [7]\n\t implicit_use_of_streaming_input: None\n" ++
    "\t implicit_use_of_streaming_output: 1\n\t access_map: {7: <class 'pash_annotations.datatypes.AccessKind.AccessKind'>: \n" ++
    "\t kind: AccessKindEnum.STREAM_INPUT\n, 1: <class 'pash_annotations.datatypes.AccessKind.AccessKind'>: \n" ++
    "\t kind: AccessKindEnum.STREAM_OUTPUT\n}\n" := by decide +kernel

/-- A typed invocation, printed. -/
example : (CommandInvocationInitial.py ⟨"cut", [.option "-d" ","], ["a.txt"]⟩).text (fun _ => "") =
    "<class 'pash_annotations.datatypes.CommandInvocationInitial.CommandInvocationInitial'>: \n\t cmd_name: cut\n" ++
    "\t flag_option_list: [<class 'pash_annotations.datatypes.BasicDatatypes.Option'>: \n\t option_name: -d\n\t option_arg: ,\n]\n" ++
    "\t operand_list: [a.txt]\n" := by decide +kernel

/-- The hypotheses of `C113_vars_partial` are met. -/
example : ∃ c d : CommandInvocationWithIOVars, (c.accessMap.map Prod.fst).Nodup ∧
    c.accessMap.map Prod.fst = d.accessMap.map Prod.fst ∧ c.py.eq d.py = true ∧ c.accessMap.length = 2 :=
  ⟨⟨"cat", [], [.var 0], none, some 1, [(0, .streamInput), (1, .streamOutput)]⟩,
    ⟨"cat", [], [.var 0], none, some 1, [(0, .streamInput), (1, .streamOutput)]⟩, by decide, rfl, by decide +kernel, rfl⟩

/-- The hypotheses of `C113_equal` for plans are met. -/
example : ∃ (heap : Heap) (p q : Parallelizer), HoldsInAll heap (transformersOf p) ∧ HoldsInAll heap (transformersOf q) ∧
    p.py.eq q.py = true :=
  ⟨fun _ => ("", .var 0), ⟨.consecChunks, MapperSpec.makeSeq, AggregatorSpec.makeConcatenate, .noAddInput, 0⟩,
    ⟨.consecChunks, MapperSpec.makeSeq, AggregatorSpec.makeConcatenate, .noAddInput, 0⟩,
    by simp [transformersOf, MapperSpec.makeSeq, AggregatorSpec.makeConcatenate, HoldsInAll, HoldsIn],
    by simp [transformersOf, MapperSpec.makeSeq, AggregatorSpec.makeConcatenate, HoldsInAll, HoldsIn], by decide +kernel⟩

end PashAnn
