import Verif.Model.PlanText
import Verif.Spec.PlanText
import Verif.Props.Text

/-! Lemmas for C87: where the texts of the parts of a plan end. -/

namespace PashAnn
open Spec Text

theorem hexDigit_inj {a b : Nat} (ha : a < 16) (hb : b < 16) (h : hexDigit a = hexDigit b) : a = b := by
  have key : ∀ a : Fin 16, ∀ b : Fin 16, hexDigit a = hexDigit b → a = b := by decide
  exact congrArg Fin.val (key ⟨a, ha⟩ ⟨b, hb⟩ h)

theorem reprChar_head {q c : Char} {l : List Char} (hq : q ≠ '\\') : ∀ r, reprChar q c ++ l ≠ q :: r := by
  intro r h
  unfold reprChar at h
  repeat' split at h
  all_goals simp at h
  all_goals first
    | exact hq h.1.symm
    | (rename_i h2 _ _ _ _; exact h2 h.1)

theorem reprChar_inj {q c d : Char} {r s : List Char} (hq : q = '\'' ∨ q = '"')
    (h : reprChar q c ++ r = reprChar q d ++ s) : c = d ∧ r = s := by
  have hx : c.toNat / 16 * 16 + c.toNat % 16 = c.toNat := by omega
  have hy : d.toNat / 16 * 16 + d.toNat % 16 = d.toNat := by omega
  unfold reprChar at h
  split at h
  · split at h
    · simp_all
    · rcases hq with rfl | rfl <;> (repeat' split at h) <;> simp_all <;> exact absurd h.1.symm ‹¬ d = '\\'›
  · split at h
    · rcases hq with rfl | rfl <;> (repeat' split at h) <;> simp_all <;> exact absurd h.1.symm ‹¬ d = '\\'›
    · rename_i hc hcq
      split at h
      · rcases hq with rfl | rfl <;> (repeat' split at h) <;> simp_all <;> exact absurd h.1.symm ‹¬ d = '\\'›
      · split at h
        · rcases hq with rfl | rfl <;> (repeat' split at h) <;> simp_all <;> exact absurd h.1.symm ‹¬ d = '\\'›
        · split at h
          · rcases hq with rfl | rfl <;> (repeat' split at h) <;> simp_all <;> exact absurd h.1.symm ‹¬ d = '\\'›
          · split at h
            · rename_i hcc
              by_cases hdd : d.toNat < 32 ∨ d.toNat = 127
              · simp only [hdd, if_true] at h
                rcases hq with rfl | rfl <;> (repeat' split at h) <;> simp at h
                all_goals
                  have h1 := hexDigit_inj (by omega) (by omega) h.1
                  have h2 := hexDigit_inj (by omega) (by omega) h.2.1
                  have : c.toNat = d.toNat := by omega
                  exact ⟨Char.toNat_inj.mp this, h.2.2⟩
              · simp only [hdd, if_false] at h
                rcases hq with rfl | rfl <;> (repeat' split at h) <;> simp_all <;> exact absurd h.1.symm ‹¬ d = '\\'›
            · rcases hq with rfl | rfl <;> (repeat' split at h) <;> simp_all <;> exact absurd h.1.symm ‹¬ d = '\\'›

theorem quoteFor_quote (s : String) : quoteFor s = '\'' ∨ quoteFor s = '"' := by
  unfold quoteFor; split <;> simp

theorem quoted_inj {q : Char} (hq : q = '\'' ∨ q = '"') (l : List Char) : ∀ (l' r s : List Char),
    l.flatMap (reprChar q) ++ q :: r = l'.flatMap (reprChar q) ++ q :: s → l = l' ∧ r = s := by
  have hb : q ≠ '\\' := by rcases hq with rfl | rfl <;> decide
  induction l with
  | nil =>
      intro l' r s h
      cases l' with
      | nil => simpa using h
      | cons d ds =>
          simp only [List.flatMap_cons, List.append_assoc] at h
          exact absurd h.symm (reprChar_head hb _)
  | cons c cs ih =>
      intro l' r s h
      cases l' with
      | nil =>
          simp only [List.flatMap_cons, List.append_assoc] at h
          exact absurd h (reprChar_head hb _)
      | cons d ds =>
          simp only [List.flatMap_cons, List.append_assoc] at h
          obtain ⟨h1, h2⟩ := reprChar_inj hq h
          have := ih ds r s h2
          exact ⟨by rw [h1, this.1], this.2⟩

theorem strRepr_apart : TellsApart strRepr (fun _ => True) := by
  intro x y r s _ _ h
  simp only [strRepr, String.toList_ofList, List.cons_append, List.append_assoc, List.cons.injEq] at h
  obtain ⟨h1, h2⟩ := h
  rw [h1] at h2
  have := quoted_inj (quoteFor_quote y) _ _ _ _ h2
  simp at this
  exact ⟨String.toList_inj.mp this.1, this.2⟩

/-- No text of a kind begins with a closing bracket or is empty. -/
def Started {α : Type} (t : α → String) : Prop := ∀ x, ∃ c u, (t x).toList = c :: u ∧ c ≠ ']'

theorem Bracketed.started {α : Type} {t : α → String} (h : Bracketed t) : Started t := by
  intro x; obtain ⟨u, hu⟩ := h x; exact ⟨_, u, hu, by decide⟩

theorem strRepr_started : Started strRepr := by
  intro x
  refine ⟨quoteFor x, _, by simp [strRepr]; rfl, ?_⟩
  rcases quoteFor_quote x with h | h <;> rw [h] <;> decide

theorem started_apart {α : Type} {t : α → String} {P : α → Prop} (ht : TellsApart t P) (hb : Started t) (l : List α) :
    ∀ (l' : List α) (r s : List Char), (∀ x ∈ l, P x) → (∀ x ∈ l', P x) →
      (listRepr (l.map t)).toList ++ r = (listRepr (l'.map t)).toList ++ s → l = l' ∧ r = s := by
  have key : ∀ (l l' : List α) (r s : List Char), (∀ x ∈ l, P x) → (∀ x ∈ l', P x) →
      (commas (l.map t)).toList ++ ']' :: r = (commas (l'.map t)).toList ++ ']' :: s → l = l' ∧ r = s := by
    intro l
    induction l with
    | nil =>
        intro l' r s _ _ h
        cases l' with
        | nil => simpa [commas] using h
        | cons y ys =>
            obtain ⟨c, u, hu, hc⟩ := hb y
            rw [List.map_cons, commas_cons] at h
            split at h <;> simp [commas, hu] at h <;> exact absurd h.1.symm hc
    | cons x xs ih =>
        intro l' r s hl hl' h
        cases l' with
        | nil =>
            obtain ⟨c, u, hu, hc⟩ := hb x
            rw [List.map_cons, commas_cons] at h
            split at h <;> simp [commas, hu] at h <;> exact absurd h.1 hc
        | cons y ys =>
            have hx := hl x (by simp)
            have hy := hl' y (by simp)
            simp only [List.map_cons, commas_cons] at h
            cases xs with
            | nil =>
                cases ys with
                | nil =>
                    simp at h
                    have := ht x y _ _ hx hy h
                    simp at this
                    simp [this]
                | cons z zs =>
                    simp at h
                    have := ht x y _ _ hx hy h
                    simp at this
            | cons w ws =>
                cases ys with
                | nil =>
                    simp at h
                    have := ht x y _ _ hx hy h
                    simp at this
                | cons z zs =>
                    simp only [List.map_cons, reduceCtorEq, if_false, String.toList_append, List.append_assoc] at h
                    obtain ⟨h1, h2⟩ := ht x y _ _ hx hy h
                    simp only [← List.map_cons] at h2
                    have := ih (z :: zs) r s (fun a m => hl a (List.mem_cons_of_mem _ m))
                      (fun a m => hl' a (List.mem_cons_of_mem _ m)) (by simpa using h2)
                    exact ⟨by rw [h1, this.1], this.2⟩
  intro l' r s hl hl' h
  simp [listRepr] at h
  exact key l l' r s hl hl' h

theorem flags_apart (other : FlagOptionWithIOVar → String) (l l' : List FlagOptionWithIOVar) (r s : List Char)
    (hl : FlagsOnOneLine l) (hl' : FlagsOnOneLine l')
    (h : (listRepr (l.map (flagOptionVar other))).toList ++ r = (listRepr (l'.map (flagOptionVar other))).toList ++ s) :
    l = l' ∧ r = s := by
  have back : ∀ l, FlagsOnOneLine l → ∃ k : List FlagOption, l = k.map (fun x => .flag x.getName) ∧
      (∀ x ∈ k, ∃ n, x = .flag n ∧ OneLine n) ∧ l.map (flagOptionVar other) = k.map flagOption := by
    intro l
    induction l with
    | nil => exact fun _ => ⟨[], rfl, by simp, rfl⟩
    | cons x xs ih =>
        intro h
        obtain ⟨n, rfl, hn⟩ := h x (by simp)
        obtain ⟨k, h1, h2, h3⟩ := ih (fun y m => h y (List.mem_cons_of_mem _ m))
        refine ⟨.flag n :: k, by rw [h1]; rfl, ?_, by simp [h3, flagOptionVar, flagOption]⟩
        intro y m
        rcases List.mem_cons.1 m with rfl | m
        · exact ⟨n, rfl, hn⟩
        · exact h2 y m
  obtain ⟨k, rfl, hk, e⟩ := back l hl
  obtain ⟨k', rfl, hk', e'⟩ := back l' hl'
  rw [e, e'] at h
  have := list_apart flagOption_apart flagOption_bracketed k k' r s
    (fun x m => by obtain ⟨n, rfl, hn⟩ := hk x m; exact hn)
    (fun x m => by obtain ⟨n, rfl, hn⟩ := hk' x m; exact hn) h
  exact ⟨by rw [this.1], this.2⟩

theorem transformers_map (other : FlagOptionWithIOVar → String) (l : List Transformer) :
    transformers other l = l.map (transformer other) := by
  induction l with
  | nil => simp [transformers]
  | cons t ts ih => simp [transformers, ih]

theorem quote_inj {a a' r r' : List Char} (ha : '\'' ∉ a) (ha' : '\'' ∉ a')
    (h : a ++ '\'' :: r = a' ++ '\'' :: r') : a = a' ∧ r = r' := by
  induction a generalizing a' with
  | nil =>
      cases a' with
      | nil => simpa using h
      | cons c cs => simp at h; simp [← h.1] at ha'
  | cons c cs ih =>
      cases a' with
      | nil => simp at h; simp [h.1] at ha
      | cons d ds =>
          simp only [List.cons_append, List.cons.injEq] at h
          have := ih (fun m => ha (List.mem_cons_of_mem _ m)) (fun m => ha' (List.mem_cons_of_mem _ m)) h.2
          exact ⟨by rw [h.1, this.1], this.2⟩

/-- What follows the class in the text of an object. -/
def attributesText (attributes : List (String × String)) : String :=
  attributes.foldl addAttribute (if attributes.length ≠ 0 then ": \n" else "\n")

theorem addAttributes_append (l : List (String × String)) : ∀ a b : String,
    l.foldl addAttribute (a ++ b) = a ++ l.foldl addAttribute b := by
  induction l with
  | nil => intro a b; rfl
  | cons x xs ih =>
      intro a b
      have : addAttribute (a ++ b) x = a ++ addAttribute b x := by simp [addAttribute, String.append_assoc]
      rw [List.foldl_cons, this, ih, List.foldl_cons]

theorem classRepr_eq (path : String) (l : List (String × String)) :
    (classRepr path l).toList =
      ['<', 'c', 'l', 'a', 's', 's', ' ', '\''] ++ path.toList ++ '\'' :: '>' :: (attributesText l).toList := by
  rw [classRepr, addAttributes_append, ← attributesText]
  simp

/-- Different classes, or objects of one class whose attributes are shown alike. -/
theorem class_apart {p p' : String} {l l' : List (String × String)} {r s : List Char} (hp : '\'' ∉ p.toList)
    (hp' : '\'' ∉ p'.toList) (h : (classRepr p l).toList ++ r = (classRepr p' l').toList ++ s) :
    p = p' ∧ (attributesText l).toList ++ r = (attributesText l').toList ++ s := by
  rw [classRepr_eq, classRepr_eq] at h
  simp only [List.append_assoc, List.cons_append, List.cons.injEq, true_and, List.nil_append] at h
  obtain ⟨h1, h2⟩ := quote_inj hp hp' h
  exact ⟨String.toList_inj.mp h1, by simpa using h2⟩

theorem classRepr_bracketed (path : String) (l : List (String × String)) : ∃ u, (classRepr path l).toList = '<' :: u := by
  rw [classRepr_eq]; exact ⟨_, rfl⟩

theorem transformer_bracketed (other : FlagOptionWithIOVar → String) : Bracketed (transformer other) := by
  intro x
  cases x <;> rw [transformer] <;> exact classRepr_bracketed _ _

theorem planClass_quote {a : String} (h : '\'' ∉ a.toList) : '\'' ∉ (planModule ++ a).toList := by
  have : '\'' ∉ planModule.toList := by simp [planModule]
  simp [h, this]

theorem planClass_inj {a b : String} (h : planModule ++ a = planModule ++ b) : a = b := by
  have := congrArg String.toList h
  simp only [String.toList_append, List.append_cancel_left_eq] at this
  exact String.toList_inj.mp this

/-- The class of a transformer. -/
def transformerClass : Transformer → String
  | .seq => planModule ++ "TransformerFlagOptionList.TransformerFlagOptionListSeq"
  | .add _ => planModule ++ "TransformerFlagOptionList.TransformerFlagOptionListAdd"
  | .remove _ => planModule ++ "TransformerFlagOptionList.TransformerFlagOptionListRemove"
  | .filter _ => planModule ++ "TransformerFlagOptionList.TransformerFlagOptionListFilter"
  | .empty => planModule ++ "TransformerFlagOptionList.TransformerFlagOptionListEmpty"
  | .custom _ => planModule ++ "TransformerFlagOptionList.TransformerFlagOptionListCustom"
  | .chain _ => planModule ++ "TransformerFlagOptionList.ChainTransformerFlagOptionList"

/-- The attributes of a transformer. -/
def transformerAttributes (other : FlagOptionWithIOVar → String) : Transformer → List (String × String)
  | .seq => []
  | .add l => [("list_to_add", listRepr (l.map (flagOptionVar other)))]
  | .remove l => [("list_to_remove", listRepr (l.map strRepr))]
  | .filter l => [("list_filter", listRepr (l.map strRepr))]
  | .empty => []
  | .custom l => [("list_custom", listRepr (l.map (flagOptionVar other)))]
  | .chain l => [("list_transformers", listRepr (l.map (transformer other)))]

theorem transformerText_eq (other : FlagOptionWithIOVar → String) (t : Transformer) :
    transformer other t = classRepr (transformerClass t) (transformerAttributes other t) := by
  cases t <;> simp only [transformer, transformerClass, transformerAttributes, transformers_map]

theorem transformerClass_quote (t : Transformer) : '\'' ∉ (transformerClass t).toList := by
  cases t <;> exact planClass_quote (by simp)

theorem transformer_apart_below (other : FlagOptionWithIOVar → String) (n : Nat) :
    TellsApart (transformer other) (fun t => PlainTransformer t ∧ sizeOf t < n) := by
  induction n with
  | zero => intro x y r s hx; exact absurd hx.2 (by omega)
  | succ n ih =>
      intro x y r s hx hy h
      rw [transformerText_eq, transformerText_eq] at h
      obtain ⟨h1, h2⟩ := class_apart (transformerClass_quote x) (transformerClass_quote y) h
      cases x with
      | seq =>
          cases y with
          | seq => simpa using h2
          | _ => exact absurd (planClass_inj h1) (by simp)
      | empty =>
          cases y with
          | empty => simpa using h2
          | _ => exact absurd (planClass_inj h1) (by simp)
      | add l =>
          cases y with
          | add l' =>
              simp [transformerAttributes, attributesText, addAttribute] at h2
              cases hx.1 with
              | add a =>
                  cases hy.1 with
                  | add b =>
                      have := flags_apart other l l' _ _ a b h2
                      simp at this
                      simp [this]
          | _ => exact absurd (planClass_inj h1) (by simp)
      | custom l =>
          cases y with
          | custom l' =>
              simp [transformerAttributes, attributesText, addAttribute] at h2
              cases hx.1 with
              | custom a =>
                  cases hy.1 with
                  | custom b =>
                      have := flags_apart other l l' _ _ a b h2
                      simp at this
                      simp [this]
          | _ => exact absurd (planClass_inj h1) (by simp)
      | remove l =>
          cases y with
          | remove l' =>
              simp [transformerAttributes, attributesText, addAttribute] at h2
              have := started_apart strRepr_apart strRepr_started l l' _ _ (by simp) (by simp) h2
              simp at this
              simp [this]
          | _ => exact absurd (planClass_inj h1) (by simp)
      | filter l =>
          cases y with
          | filter l' =>
              simp [transformerAttributes, attributesText, addAttribute] at h2
              have := started_apart strRepr_apart strRepr_started l l' _ _ (by simp) (by simp) h2
              simp at this
              simp [this]
          | _ => exact absurd (planClass_inj h1) (by simp)
      | chain l =>
          cases y with
          | chain l' =>
              simp [transformerAttributes, attributesText, addAttribute] at h2
              cases hx.1 with
              | chain a =>
                  cases hy.1 with
                  | chain b =>
                      have := list_apart ih (transformer_bracketed other) l l' _ _
                        (fun t m => ⟨a t m, by
                          have := List.sizeOf_lt_of_mem m
                          have h := hx.2
                          simp at h; omega⟩)
                        (fun t m => ⟨b t m, by
                          have := List.sizeOf_lt_of_mem m
                          have h := hy.2
                          simp at h; omega⟩) h2
                      simp at this
                      simp [this]
          | _ => exact absurd (planClass_inj h1) (by simp)

theorem transformer_apart (other : FlagOptionWithIOVar → String) : TellsApart (transformer other) PlainTransformer :=
  fun x y r s hx hy h => transformer_apart_below other (sizeOf x + sizeOf y + 1) x y r s ⟨hx, by omega⟩ ⟨hy, by omega⟩ h

theorem truth_line (b : Bool) : OneLine (truth b) := by cases b <;> simp [OneLine, truth]
theorem truth_inj {a b : Bool} (h : truth a = truth b) : a = b := by
  cases a <;> cases b <;> first | rfl | simp [truth] at h
theorem aggregatorKind_line (k : AggregatorKind) : OneLine (aggregatorKind k) := by
  cases k <;> simp [OneLine, aggregatorKind]
theorem aggregatorKind_inj {a b : AggregatorKind} (h : aggregatorKind a = aggregatorKind b) : a = b := by
  cases a <;> cases b <;> first | rfl | simp [aggregatorKind] at h
theorem mapperKind_line (k : MapperSpecKind) : OneLine (mapperKind k) := by
  cases k <;> simp [OneLine, mapperKind]
theorem mapperKind_inj {a b : MapperSpecKind} (h : mapperKind a = mapperKind b) : a = b := by
  cases a <;> cases b <;> first | rfl | simp [mapperKind] at h
theorem splitter_line (k : Splitter) : OneLine (splitter k) := by
  cases k <;> simp [OneLine, splitter]
theorem splitter_inj {a b : Splitter} (h : splitter a = splitter b) : a = b := by
  cases a <;> cases b <;> first | rfl | simp [splitter] at h
theorem mapperName_line {n : Option String} (h : ∀ m, n = some m → OneLine m ∧ m ≠ "None") : OneLine (mapperName n) := by
  cases n with
  | none => simp [OneLine, mapperName]
  | some m => exact (h m rfl).1
theorem mapperName_inj {n m : Option String} (h : ∀ a, n = some a → OneLine a ∧ a ≠ "None")
    (h' : ∀ a, m = some a → OneLine a ∧ a ≠ "None") (e : mapperName n = mapperName m) : n = m := by
  cases n with
  | none =>
      cases m with
      | none => rfl
      | some b => exact absurd e.symm (h' b rfl).2
  | some a =>
      cases m with
      | none => exact absurd e (h a rfl).2
      | some b => exact congrArg some e

theorem mapperSpec_apart (other : FlagOptionWithIOVar → String) : TellsApart (mapperSpec other) PlainMapper := by
  intro x y r s hx hy h
  obtain ⟨k, n, t, b⟩ := x
  obtain ⟨k', n', t', b'⟩ := y
  rw [mapperSpec, mapperSpec] at h
  obtain ⟨-, h⟩ := class_apart (planClass_quote (by simp)) (planClass_quote (by simp)) h
  simp [attributesText, addAttribute] at h
  obtain ⟨h1, h⟩ := name_inj (mapperKind_line k) (mapperKind_line k') h
  simp at h
  obtain ⟨h2, h⟩ := name_inj (mapperName_line hx.name) (mapperName_line hy.name) h
  simp at h
  obtain ⟨h3, h⟩ := transformer_apart other t t' _ _ hx.transformer hy.transformer h
  simp at h
  obtain ⟨h4, h⟩ := name_inj (truth_line b) (truth_line b') h
  have h2 := mapperName_inj hx.name hy.name h2
  simp only at h2
  rw [mapperKind_inj h1, h2, h3, truth_inj h4]
  exact ⟨rfl, h⟩

theorem aggregatorSpec_apart (other : FlagOptionWithIOVar → String) :
    TellsApart (aggregatorSpec other) PlainAggregator := by
  intro x y r s hx hy h
  cases x with
  | nonFunc k b =>
      cases y with
      | nonFunc k' b' =>
          rw [aggregatorSpec, aggregatorSpec] at h
          obtain ⟨-, h⟩ := class_apart (planClass_quote (by simp)) (planClass_quote (by simp)) h
          simp [attributesText, addAttribute] at h
          obtain ⟨h1, h⟩ := name_inj (aggregatorKind_line k) (aggregatorKind_line k') h
          simp at h
          obtain ⟨h2, h⟩ := name_inj (truth_line b) (truth_line b') h
          rw [aggregatorKind_inj h1, truth_inj h2]
          exact ⟨rfl, h⟩
      | _ =>
          rw [aggregatorSpec, aggregatorSpec] at h
          exact absurd (planClass_inj (class_apart (planClass_quote (by simp)) (planClass_quote (by simp)) h).1) (by simp)
  | funcTransformer k t b =>
      cases y with
      | funcTransformer k' t' b' =>
          rw [aggregatorSpec, aggregatorSpec] at h
          obtain ⟨-, h⟩ := class_apart (planClass_quote (by simp)) (planClass_quote (by simp)) h
          simp [attributesText, addAttribute] at h
          obtain ⟨h1, h⟩ := name_inj (aggregatorKind_line k) (aggregatorKind_line k') h
          simp at h
          obtain ⟨h2, h⟩ := name_inj (truth_line b) (truth_line b') h
          simp at h
          obtain ⟨h3, h⟩ := transformer_apart other t t' _ _ hx hy h
          simp at h
          rw [aggregatorKind_inj h1, truth_inj h2, h3]
          exact ⟨rfl, h⟩
      | _ =>
          rw [aggregatorSpec, aggregatorSpec] at h
          exact absurd (planClass_inj (class_apart (planClass_quote (by simp)) (planClass_quote (by simp)) h).1) (by simp)
  | funcString k t b =>
      cases y with
      | funcString k' t' b' =>
          rw [aggregatorSpec, aggregatorSpec] at h
          obtain ⟨-, h⟩ := class_apart (planClass_quote (by simp)) (planClass_quote (by simp)) h
          simp [attributesText, addAttribute] at h
          obtain ⟨h1, h⟩ := name_inj (aggregatorKind_line k) (aggregatorKind_line k') h
          simp at h
          obtain ⟨h2, h⟩ := name_inj (truth_line b) (truth_line b') h
          simp at h
          obtain ⟨h3, h⟩ := name_inj hx hy h
          rw [aggregatorKind_inj h1, truth_inj h2, h3]
          exact ⟨rfl, h⟩
      | _ =>
          rw [aggregatorSpec, aggregatorSpec] at h
          exact absurd (planClass_inj (class_apart (planClass_quote (by simp)) (planClass_quote (by simp)) h).1) (by simp)

/-- What is shown of a plan. -/
def shown (p : Parallelizer) : Parallelizer := ⟨p.splitter, p.coreMapperSpec, p.coreAggregatorSpec, .noAddInput, 0⟩

theorem shown_text (other : FlagOptionWithIOVar → String) (p : Parallelizer) :
    parallelizer other (shown p) = parallelizer other p := by
  delta parallelizer shown
  simp only

theorem parallelizer_apart (other : FlagOptionWithIOVar → String) :
    TellsApart (parallelizer other) (fun p => PlainPlan p ∧ shown p = p) := by
  intro x y r s hx hy h
  delta parallelizer at h
  simp at h
  have sp : ∀ (a b : Splitter) (u v : List Char), (splitter a).toList ++ ' ' :: '\n' :: u =
      (splitter b).toList ++ ' ' :: '\n' :: v → a = b ∧ u = v := by
    intro a b u v e
    cases a <;> cases b <;> simp [splitter] at e ⊢ <;> exact e
  obtain ⟨h1, h⟩ := sp _ _ _ _ h
  simp at h
  obtain ⟨h2, h⟩ := mapperSpec_apart other _ _ _ _ hx.1.mapper hy.1.mapper h
  simp at h
  obtain ⟨h3, h⟩ := aggregatorSpec_apart other _ _ _ _ hx.1.aggregator hy.1.aggregator h
  simp at h
  refine ⟨?_, h⟩
  rw [← hx.2, ← hy.2, shown, shown, h1, h2, h3]

theorem parallelizer_started (other : FlagOptionWithIOVar → String) : Started (parallelizer other) := by
  intro x
  have : ∃ u, (parallelizer other x).toList = 'P' :: u := by
    delta parallelizer
    simp
  obtain ⟨u, hu⟩ := this
  exact ⟨'P', u, hu, by decide⟩

end PashAnn
