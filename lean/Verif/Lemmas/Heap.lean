import Verif.Spec.Heap

/-! Lemmas on the heap model: the traversal of an invocation on the heap follows the traversal of its value. -/

namespace PashAnn.Heap

theorem bind_def {α β : Type} (x : HM α) (f : α → HM β) (h : Heap) : (x >>= f) h = match x h with
    | (.ok a, h') => f a h'
    | (.error e, h') => (.error e, h') := rfl

theorem pure_def {α : Type} (a : α) (h : Heap) : (pure a : HM α) h = (.ok a, h) := rfl

theorem bind_ok {α β : Type} {x : HM α} {f : α → HM β} {h h' : Heap} {a : α} (hx : x h = (.ok a, h')) :
    (x >>= f) h = f a h' := by rw [bind_def, hx]

theorem bind_error {α β : Type} {x : HM α} {f : α → HM β} {h h' : Heap} {e : PyErr} (hx : x h = (.error e, h')) :
    (x >>= f) h = (.error e, h') := by rw [bind_def, hx]

theorem pyBind_ok {α β : Type} (a : α) (f : α → Py β) : ((Except.ok a : Py α) >>= f) = f a := rfl

theorem pyBind_error {α β : Type} (e : PyErr) (f : α → Py β) : ((Except.error e : Py α) >>= f) = .error e := rfl

theorem getInv_eq {h : Heap} {a : Addr} {o : InvObj} (ha : h[a]? = some (.inv o)) : getInv a h = (.ok o, h) := by
  simp only [getInv, ha]

theorem getVars_eq {h : Heap} {a : Addr} {l : List VArg} (ha : h[a]? = some (.vars l)) : getVars a h = (.ok l, h) := by
  simp only [getVars, ha]

theorem getOptions_eq {h : Heap} {a : Addr} {l : List FlagOptionWithIOVar} (ha : h[a]? = some (.options l)) :
    getOptions a h = (.ok l, h) := by simp only [getOptions, ha]

theorem getMap_eq {h : Heap} {a : Addr} {m : AccessMap} (ha : h[a]? = some (.map m)) : getMap a h = (.ok m, h) := by
  simp only [getMap, ha]

theorem lt_of_get {h : Heap} {a : Addr} {x : Obj} (ha : h[a]? = some x) : a < h.length := by
  rcases Nat.lt_or_ge a h.length with hlt | hge
  · exact hlt
  · rw [List.getElem?_eq_none hge] at ha; cases ha

/-- Objects outside `W` are as before; no object is new. -/
def Only (W : List Addr) (h h' : Heap) : Prop := h'.length = h.length ∧ ∀ a, a ∉ W → h'[a]? = h[a]?

/-- Old objects outside `W` are as before; there may be new objects. -/
def Upd (W : List Addr) (h h' : Heap) : Prop := h.length ≤ h'.length ∧ ∀ a < h.length, a ∉ W → h'[a]? = h[a]?

theorem Only.refl (W : List Addr) (h : Heap) : Only W h h := ⟨rfl, fun _ _ => rfl⟩
theorem Upd.refl (W : List Addr) (h : Heap) : Upd W h h := ⟨Nat.le_refl _, fun _ _ _ => rfl⟩

theorem Only.trans {W : List Addr} {h1 h2 h3 : Heap} (a : Only W h1 h2) (b : Only W h2 h3) : Only W h1 h3 :=
  ⟨b.1.trans a.1, fun x hx => (b.2 x hx).trans (a.2 x hx)⟩

theorem Upd.trans {W : List Addr} {h1 h2 h3 : Heap} (a : Upd W h1 h2) (b : Upd W h2 h3) : Upd W h1 h3 :=
  ⟨Nat.le_trans a.1 b.1, fun x hx hw => (b.2 x (Nat.lt_of_lt_of_le hx a.1) hw).trans (a.2 x hx hw)⟩

theorem Only.upd {W : List Addr} {h h' : Heap} (a : Only W h h') : Upd W h h' :=
  ⟨Nat.le_of_eq a.1.symm, fun x _ hw => a.2 x hw⟩

theorem Upd.mono {W W' : List Addr} {h h' : Heap} (hs : ∀ a ∈ W, a ∈ W') (a : Upd W h h') : Upd W' h h' :=
  ⟨a.1, fun x hx hw => a.2 x hx (fun hm => hw (hs x hm))⟩

/-- Changes of new objects only are no changes. -/
theorem Upd.fresh {W : List Addr} {h0 h h' : Heap} (a : Upd [] h0 h) (b : Upd W h h')
    (hW : ∀ x ∈ W, h0.length ≤ x) : Upd [] h0 h' :=
  ⟨Nat.le_trans a.1 b.1, fun x hx _ => (b.2 x (Nat.lt_of_lt_of_le hx a.1)
    (fun hm => Nat.lt_irrefl _ (Nat.lt_of_lt_of_le hx (hW x hm)))).trans (a.2 x hx (by simp))⟩

theorem alloc_upd (o : Obj) (h : Heap) : Upd [] h (h ++ [o]) :=
  ⟨by simp, fun a ha _ => List.getElem?_append_left ha⟩

theorem alloc_new (o : Obj) (h : Heap) : (h ++ [o])[h.length]? = some o := by simp

theorem put_only (a : Addr) (o : Obj) (h : Heap) : Only [a] h (h.set a o) :=
  ⟨by simp, fun b hb => List.getElem?_set_ne (fun e => hb (by simp [e]))⟩

theorem put_get {a : Addr} {h : Heap} (o : Obj) (ha : a < h.length) : (h.set a o)[a]? = some o := by simp [ha]

/-- How a computation on the heap follows one on values. -/
def Out {α β σ : Type} (x : Py α × Heap) (r : Py (β × σ)) (okRel : α → β → σ → Heap → Prop) (errRel : Heap → Prop) : Prop :=
  match r with
  | .ok bs => ∃ a h', x = (.ok a, h') ∧ okRel a bs.1 bs.2 h'
  | .error e => ∃ h', x = (.error e, h') ∧ errRel h'

/-- The function applied to variables follows its version on values; it changes the objects in `W` only, and nothing when
it raises. -/
def FSim {σ : Type} (self mapA : Addr) (W : List Addr) (P : σ → Heap → Prop) (fp : VarFun σ)
    (fh : IOVar → HM (List IOVar)) : Prop :=
  ∀ s v h o, h[self]? = some (.inv o) → o.accessMap = mapA → P s h →
    Out (fh v h) (fp s v) (fun l l' s' h' => l = l' ∧ P s' h' ∧ Only W h h') (fun h' => h' = h)

/-- The invocation at `self` has the parts of `c` (but for the map), its map at `mapA` and its lists outside `N`. -/
def Shape (self mapA : Addr) (N : List Addr) (c : CommandInvocationWithIOVars) (h : Heap) : Prop :=
  ∃ o : InvObj, h[self]? = some (.inv o) ∧ o.accessMap = mapA ∧ o.cmdName = c.cmdName ∧
    o.implicitInput = c.implicitInput ∧ o.implicitOutput = c.implicitOutput ∧
    h[o.flagOptionList]? = some (.options c.flagOptionList) ∧ h[o.operandList]? = some (.vars c.operandList) ∧
    o.flagOptionList ∉ N ∧ o.operandList ∉ N

section
variable {σ : Type} {self mapA : Addr} {W N : List Addr} {P : σ → Heap → Prop} {fp : VarFun σ}
  {fh : IOVar → HM (List IOVar)}

theorem flagOptionLoop_sim (hF : FSim self mapA W P fp fh) (hself : self ∉ W) (o : InvObj) (hmap : o.accessMap = mapA)
    (hl : o.flagOptionList ∉ W) (rest pre : List FlagOptionWithIOVar) (acc : List FlagOptionWithIOVar) (s : σ) (h : Heap)
    (ho : h[self]? = some (.inv o)) (hlist : h[o.flagOptionList]? = some (.options (pre ++ rest))) (hp : P s h) :
    Out (flagOptionLoop self fh (List.range' pre.length rest.length) acc h) (PashAnn.flatMapFlagOptionList fp s rest)
      (fun a b s' h' => a = acc ++ b ∧ P s' h' ∧ Only W h h') (fun h' => ∃ s', P s' h' ∧ Only W h h') := by
  induction rest generalizing pre acc s h with
  | nil => exact ⟨_, h, rfl, by simp, hp, Only.refl _ _⟩
  | cons x rest ih =>
      have hr : List.range' pre.length (x :: rest).length = pre.length :: List.range' (pre.length + 1) rest.length := rfl
      have hx : (pre ++ x :: rest)[pre.length]? = some x := by simp
      rw [hr, flagOptionLoop, bind_ok (getInv_eq ho), bind_ok (getOptions_eq hlist)]
      simp only [hx]
      -- the rest of the loop
      have next : ∀ (y : FlagOptionWithIOVar) (s1 : σ) (h1 : Heap), P s1 h1 → Only W h h1 →
          Out (flagOptionLoop self fh (List.range' (pre.length + 1) rest.length) (acc ++ [y]) h1)
            (PashAnn.flatMapFlagOptionList fp s1 rest)
            (fun a b s' h' => a = acc ++ (y :: b) ∧ P s' h' ∧ Only W h h') (fun h' => ∃ s', P s' h' ∧ Only W h h') := by
        intro y s1 h1 hp1 h1o
        have := ih (pre ++ [x]) (acc ++ [y]) s1 h1 (by rw [h1o.2 _ hself]; exact ho)
          (by rw [h1o.2 _ hl]; simpa using hlist) hp1
        simp only [List.length_append, List.length_cons, List.length_nil, Nat.zero_add] at this
        unfold Out at this ⊢
        split
        · rename_i bs hbs
          rw [hbs] at this
          obtain ⟨a, h', e, rfl, hp', ho'⟩ := this
          exact ⟨_, h', e, by simp, hp', h1o.trans ho'⟩
        · rename_i e he
          rw [he] at this
          obtain ⟨h', e, s', hp', ho'⟩ := this
          exact ⟨h', e, s', hp', h1o.trans ho'⟩
      -- an element that is kept
      have keep : ∀ y, (PashAnn.flatMapFlagOptionList fp s (y :: rest) = do
            let r' ← PashAnn.flatMapFlagOptionList fp s rest
            .ok (y :: r'.1, r'.2)) →
          Out (flagOptionLoop self fh (List.range' (pre.length + 1) rest.length) (acc ++ [y]) h)
            (PashAnn.flatMapFlagOptionList fp s (y :: rest))
            (fun a b s' h' => a = acc ++ b ∧ P s' h' ∧ Only W h h') (fun h' => ∃ s', P s' h' ∧ Only W h h') := by
        intro y hy
        rw [hy]
        have := next y s h hp (Only.refl _ _)
        unfold Out at this ⊢
        cases hr' : PashAnn.flatMapFlagOptionList fp s rest with
        | error e => rw [hr'] at this; exact this
        | ok bs => rw [hr'] at this; exact this
      cases x with
      | flag n => exact keep _ rfl
      | optionVar i n a => exact keep _ rfl
      | optionIO n a =>
          cases a with
          | str t => exact keep _ rfl
          | io t => exact keep _ rfl
          | var v =>
              have hf := hF s v h o ho hmap hp
              unfold Out at hf
              simp only [PashAnn.flatMapFlagOptionList]
              cases hv : fp s v with
              | error e =>
                  rw [hv] at hf
                  obtain ⟨h', e', rfl⟩ := hf
                  rw [bind_error e']
                  exact ⟨_, rfl, s, hp, Only.refl _ _⟩
              | ok r =>
                  rw [hv] at hf
                  obtain ⟨l, h1, e', rfl, hp1, ho1⟩ := hf
                  rw [bind_ok e']
                  obtain ⟨l, s1⟩ := r
                  simp only [pyBind_ok]
                  match l with
                  | [] => exact ⟨_, rfl, s1, hp1, ho1⟩
                  | [new] =>
                      have := next (.optionIO n (.var new)) s1 h1 hp1 ho1
                      unfold Out at this ⊢
                      simp only at this ⊢
                      cases hr' : PashAnn.flatMapFlagOptionList fp s1 rest with
                      | error e => rw [hr'] at this; exact this
                      | ok bs => rw [hr'] at this; exact this
                  | _ :: _ :: _ => exact ⟨_, rfl, s1, hp1, ho1⟩

theorem operandLoop_sim (hF : FSim self mapA W P fp fh) (hself : self ∉ W) (o : InvObj) (hmap : o.accessMap = mapA)
    (hl : o.operandList ∉ W) (rest pre : List VArg) (acc : List VArg) (s : σ) (h : Heap)
    (ho : h[self]? = some (.inv o)) (hlist : h[o.operandList]? = some (.vars (pre ++ rest))) (hp : P s h) :
    Out (operandLoop self fh (List.range' pre.length rest.length) acc h) (PashAnn.flatMapOperandList fp s rest)
      (fun a b s' h' => a = acc ++ b ∧ P s' h' ∧ Only W h h') (fun h' => ∃ s', P s' h' ∧ Only W h h') := by
  induction rest generalizing pre acc s h with
  | nil => exact ⟨_, h, rfl, by simp, hp, Only.refl _ _⟩
  | cons x rest ih =>
      have hr : List.range' pre.length (x :: rest).length = pre.length :: List.range' (pre.length + 1) rest.length := rfl
      have hx : (pre ++ x :: rest)[pre.length]? = some x := by simp
      rw [hr, operandLoop, bind_ok (getInv_eq ho), bind_ok (getVars_eq hlist)]
      simp only [hx]
      have next : ∀ (y : List VArg) (s1 : σ) (h1 : Heap), P s1 h1 → Only W h h1 →
          Out (operandLoop self fh (List.range' (pre.length + 1) rest.length) (acc ++ y) h1)
            (PashAnn.flatMapOperandList fp s1 rest)
            (fun a b s' h' => a = acc ++ (y ++ b) ∧ P s' h' ∧ Only W h h') (fun h' => ∃ s', P s' h' ∧ Only W h h') := by
        intro y s1 h1 hp1 h1o
        have := ih (pre ++ [x]) (acc ++ y) s1 h1 (by rw [h1o.2 _ hself]; exact ho)
          (by rw [h1o.2 _ hl]; simpa using hlist) hp1
        simp only [List.length_append, List.length_cons, List.length_nil, Nat.zero_add] at this
        unfold Out at this ⊢
        split
        · rename_i bs hbs
          rw [hbs] at this
          obtain ⟨a, h', e, rfl, hp', ho'⟩ := this
          exact ⟨_, h', e, by simp, hp', h1o.trans ho'⟩
        · rename_i e he
          rw [he] at this
          obtain ⟨h', e, s', hp', ho'⟩ := this
          exact ⟨h', e, s', hp', h1o.trans ho'⟩
      have keep : ∀ y, (PashAnn.flatMapOperandList fp s (y :: rest) = do
            let r' ← PashAnn.flatMapOperandList fp s rest
            .ok (y :: r'.1, r'.2)) →
          Out (operandLoop self fh (List.range' (pre.length + 1) rest.length) (acc ++ [y]) h)
            (PashAnn.flatMapOperandList fp s (y :: rest))
            (fun a b s' h' => a = acc ++ b ∧ P s' h' ∧ Only W h h') (fun h' => ∃ s', P s' h' ∧ Only W h h') := by
        intro y hy
        rw [hy]
        have := next [y] s h hp (Only.refl _ _)
        unfold Out at this ⊢
        cases hr' : PashAnn.flatMapOperandList fp s rest with
        | error e => rw [hr'] at this; exact this
        | ok bs => rw [hr'] at this; exact this
      cases x with
      | str t => exact keep _ rfl
      | io t => exact keep _ rfl
      | var v =>
          have hf := hF s v h o ho hmap hp
          unfold Out at hf
          simp only [PashAnn.flatMapOperandList]
          cases hv : fp s v with
          | error e =>
              rw [hv] at hf
              obtain ⟨h', e', rfl⟩ := hf
              rw [bind_error e']
              exact ⟨_, rfl, s, hp, Only.refl _ _⟩
          | ok r =>
              rw [hv] at hf
              obtain ⟨l, h1, e', rfl, hp1, ho1⟩ := hf
              rw [bind_ok e']
              have := next (r.1.map VArg.var) r.2 h1 hp1 ho1
              unfold Out at this ⊢
              simp only [pyBind_ok] at this ⊢
              cases hr' : PashAnn.flatMapOperandList fp r.2 rest with
              | error e => rw [hr'] at this; exact this
              | ok bs => rw [hr'] at this; exact this

theorem implicit_sim (hF : FSim self mapA W P fp fh) (o : InvObj) (hmap : o.accessMap = mapA) (x : Option IOVar) (s : σ)
    (h : Heap) (ho : h[self]? = some (.inv o)) (hp : P s h) :
    Out (flatMapImplicit fh x h) (PashAnn.flatMapImplicit fp s x)
      (fun a b s' h' => a = b ∧ P s' h' ∧ Only W h h') (fun h' => ∃ s', P s' h' ∧ Only W h h') := by
  cases x with
  | none => exact ⟨_, h, rfl, rfl, hp, Only.refl _ _⟩
  | some v =>
      have hf := hF s v h o ho hmap hp
      unfold Out at hf
      simp only [PashAnn.flatMapImplicit, flatMapImplicit]
      cases hv : fp s v with
      | error e =>
          rw [hv] at hf
          obtain ⟨h', e', rfl⟩ := hf
          rw [bind_error e']
          exact ⟨_, rfl, s, hp, Only.refl _ _⟩
      | ok r =>
          rw [hv] at hf
          obtain ⟨l, h1, e', rfl, hp1, ho1⟩ := hf
          rw [bind_ok e']
          obtain ⟨l, s1⟩ := r
          match l with
          | [] => exact ⟨_, _, rfl, rfl, hp1, ho1⟩
          | [new] => exact ⟨_, _, rfl, rfl, hp1, ho1⟩
          | _ :: _ :: _ => exact ⟨_, rfl, s1, hp1, ho1⟩

/-- A function that leaves all variables as they are. -/
def ReadOnly (fp : VarFun σ) : Prop := ∀ s v r, fp s v = .ok r → r.1 = [v]

theorem readOnly_flags (hr : ReadOnly fp) (l : List FlagOptionWithIOVar) (s : σ) {r} 
    (h : PashAnn.flatMapFlagOptionList fp s l = .ok r) : r.1 = l := by
  induction l generalizing s r with
  | nil => cases h; rfl
  | cons x l ih =>
      have keep : (do
            let r' ← PashAnn.flatMapFlagOptionList fp s l
            .ok (x :: r'.1, r'.2) : Py _) = .ok r → r.1 = x :: l := by
        cases h1 : PashAnn.flatMapFlagOptionList fp s l with
        | error e => intro h; cases h
        | ok r1 => intro h; cases h; rw [ih _ h1]
      cases x with
      | flag n => exact keep h
      | optionVar i n a => exact keep h
      | optionIO n a =>
          cases a with
          | str t => exact keep h
          | io t => exact keep h
          | var v =>
              simp only [PashAnn.flatMapFlagOptionList] at h
              cases hv : fp s v with
              | error e => rw [hv] at h; cases h
              | ok q =>
                  rw [hv] at h
                  simp only [pyBind_ok, hr s v q hv] at h
                  cases h1 : PashAnn.flatMapFlagOptionList fp q.2 l with
                  | error e => rw [h1] at h; cases h
                  | ok r1 => rw [h1] at h; cases h; rw [ih _ h1]

theorem readOnly_operands (hr : ReadOnly fp) (l : List VArg) (s : σ) {r}
    (h : PashAnn.flatMapOperandList fp s l = .ok r) : r.1 = l := by
  induction l generalizing s r with
  | nil => cases h; rfl
  | cons x l ih =>
      have keep : (do
            let r' ← PashAnn.flatMapOperandList fp s l
            .ok (x :: r'.1, r'.2) : Py _) = .ok r → r.1 = x :: l := by
        cases h1 : PashAnn.flatMapOperandList fp s l with
        | error e => intro h; cases h
        | ok r1 => intro h; cases h; rw [ih _ h1]
      cases x with
      | str t => exact keep h
      | io t => exact keep h
      | var v =>
          simp only [PashAnn.flatMapOperandList] at h
          cases hv : fp s v with
          | error e => rw [hv] at h; cases h
          | ok q =>
              rw [hv] at h
              simp only [pyBind_ok, hr s v q hv] at h
              cases h1 : PashAnn.flatMapOperandList fp q.2 l with
              | error e => rw [h1] at h; cases h
              | ok r1 => rw [h1] at h; cases h; rw [ih _ h1]; rfl

theorem readOnly_implicit (hr : ReadOnly fp) (x : Option IOVar) (s : σ) {r}
    (h : PashAnn.flatMapImplicit fp s x = .ok r) : r.1 = x := by
  cases x with
  | none => cases h; rfl
  | some v =>
      simp only [PashAnn.flatMapImplicit] at h
      cases hv : fp s v with
      | error e => rw [hv] at h; cases h
      | ok q =>
          rw [hv] at h
          simp only [pyBind_ok, hr s v q hv] at h
          cases h; rfl

/-- The parts of the heap that `P` depends on. -/
def Stable (W : List Addr) (P : σ → Heap → Prop) : Prop := ∀ s h h', P s h → (∀ a ∈ W, h'[a]? = h[a]?) → P s h'

theorem Shape.only {c : CommandInvocationWithIOVars} {h h' : Heap} (hs : Shape self mapA N c h) (hself : self ∉ W)
    (hW : ∀ a ∈ W, a ∈ N) (ho : Only W h h') : Shape self mapA N c h' := by
  obtain ⟨o, h1, h2, h3, h4, h5, h6, h7, h8, h9⟩ := hs
  exact ⟨o, by rw [ho.2 _ hself]; exact h1, h2, h3, h4, h5, by rw [ho.2 _ (fun hm => h8 (hW _ hm))]; exact h6,
    by rw [ho.2 _ (fun hm => h9 (hW _ hm))]; exact h7, h8, h9⟩

variable (hF : FSim self mapA W P fp fh) (hP : Stable W P) (hself : self ∉ W) (hW : ∀ a ∈ W, a ∈ N)
include hF hP hself hW

theorem flagOptions_sim {c : CommandInvocationWithIOVars} {h : Heap} {s : σ} (hs : Shape self mapA N c h)
    (hp : P s h) (hN : ∀ a ∈ N, a < h.length) :
    Out (flatMapFlagOptionList self fh h) (PashAnn.flatMapFlagOptionList fp s c.flagOptionList)
      (fun _ b s' h' => Shape self mapA N { c with flagOptionList := b } h' ∧ P s' h' ∧ Upd (self :: W) h h')
      (fun h' => ∃ s', Shape self mapA N c h' ∧ P s' h' ∧ Upd (self :: W) h h') := by
  have hs0 := hs
  obtain ⟨o, h1, h2, h3, h4, h5, h6, h7, h8, h9⟩ := hs
  have hl := flagOptionLoop_sim hF hself o h2 (fun hm => h8 (hW _ hm)) c.flagOptionList [] [] s h h1 h6 hp
  unfold flatMapFlagOptionList
  rw [bind_ok (getInv_eq h1), bind_ok (getOptions_eq h6), List.range_eq_range']
  unfold Out at hl ⊢
  cases hr : PashAnn.flatMapFlagOptionList fp s c.flagOptionList with
  | error e =>
      rw [hr] at hl
      obtain ⟨h', e', s', hp', ho'⟩ := hl
      simp only [List.length_nil] at e'
      rw [bind_error e']
      exact ⟨h', rfl, s', hs0.only hself hW ho', hp', ho'.upd.mono (fun a ha => by simp [ha])⟩
  | ok r =>
      rw [hr] at hl
      obtain ⟨a, h', e', rfl, hp', ho'⟩ := hl
      simp only [List.length_nil, List.nil_append] at e'
      rw [bind_ok e']
      have hself' : h'[self]? = some (.inv o) := by rw [ho'.2 _ hself]; exact h1
      have hlt := lt_of_get hself'
      have hin : (h' ++ [Obj.options r.1])[self]? = some (.inv o) := by rw [List.getElem?_append_left hlt]; exact hself'
      refine ⟨(), (h' ++ [Obj.options r.1]).set self (.inv { o with flagOptionList := h'.length }), ?_, ?_, ?_, ?_⟩
      · rw [bind_ok (x := alloc _) rfl, bind_ok (getInv_eq hin)]; rfl
      · have hne : ∀ a, a ≠ self → a < h'.length →
            ((h' ++ [Obj.options r.1]).set self (.inv { o with flagOptionList := h'.length }))[a]? = h'[a]? := by
          intro a hne hlt'
          rw [List.getElem?_set_ne (fun e => hne e.symm), List.getElem?_append_left hlt']
        have hop := (ho'.2 _ (fun hm => h9 (hW _ hm))).trans h7
        refine ⟨_, put_get _ (lt_of_get hin), h2, h3, h4, h5, ?_, ?_, ?_, h9⟩
        · rw [List.getElem?_set_ne (Nat.ne_of_lt hlt)]; simp
        · rw [hne _ (by rintro rfl; rw [hself'] at hop; cases hop) (lt_of_get hop)]; exact hop
        · intro hm; have := hN _ hm; rw [← ho'.1] at this; exact Nat.lt_irrefl _ this
      · refine hP _ _ _ hp' (fun a ha => ?_)
        have hlt' : a < h'.length := by rw [ho'.1]; exact hN a (hW a ha)
        rw [List.getElem?_set_ne (fun e => hself (by rw [e]; exact ha)), List.getElem?_append_left hlt']
      · refine Upd.trans (ho'.upd.mono (fun a ha => by simp [ha])) ⟨by simp, fun a ha hna => ?_⟩
        rw [List.getElem?_set_ne (fun e => hna (by simp [e])), List.getElem?_append_left ha]

theorem operands_sim {c : CommandInvocationWithIOVars} {h : Heap} {s : σ} (hs : Shape self mapA N c h)
    (hp : P s h) (hN : ∀ a ∈ N, a < h.length) :
    Out (flatMapOperandList self fh h) (PashAnn.flatMapOperandList fp s c.operandList)
      (fun _ b s' h' => Shape self mapA N { c with operandList := b } h' ∧ P s' h' ∧ Upd (self :: W) h h')
      (fun h' => ∃ s', Shape self mapA N c h' ∧ P s' h' ∧ Upd (self :: W) h h') := by
  have hs0 := hs
  obtain ⟨o, h1, h2, h3, h4, h5, h6, h7, h8, h9⟩ := hs
  have hl := operandLoop_sim hF hself o h2 (fun hm => h9 (hW _ hm)) c.operandList [] [] s h h1 h7 hp
  unfold flatMapOperandList
  rw [bind_ok (getInv_eq h1), bind_ok (getVars_eq h7), List.range_eq_range']
  unfold Out at hl ⊢
  cases hr : PashAnn.flatMapOperandList fp s c.operandList with
  | error e =>
      rw [hr] at hl
      obtain ⟨h', e', s', hp', ho'⟩ := hl
      simp only [List.length_nil] at e'
      rw [bind_error e']
      exact ⟨h', rfl, s', hs0.only hself hW ho', hp', ho'.upd.mono (fun a ha => by simp [ha])⟩
  | ok r =>
      rw [hr] at hl
      obtain ⟨a, h', e', rfl, hp', ho'⟩ := hl
      simp only [List.length_nil, List.nil_append] at e'
      rw [bind_ok e']
      have hself' : h'[self]? = some (.inv o) := by rw [ho'.2 _ hself]; exact h1
      have hlt := lt_of_get hself'
      have hin : (h' ++ [Obj.vars r.1])[self]? = some (.inv o) := by rw [List.getElem?_append_left hlt]; exact hself'
      refine ⟨(), (h' ++ [Obj.vars r.1]).set self (.inv { o with operandList := h'.length }), ?_, ?_, ?_, ?_⟩
      · rw [bind_ok (x := alloc _) rfl, bind_ok (getInv_eq hin)]; rfl
      · have hne : ∀ a, a ≠ self → a < h'.length →
            ((h' ++ [Obj.vars r.1]).set self (.inv { o with operandList := h'.length }))[a]? = h'[a]? := by
          intro a hne hlt'
          rw [List.getElem?_set_ne (fun e => hne e.symm), List.getElem?_append_left hlt']
        have hop := (ho'.2 _ (fun hm => h8 (hW _ hm))).trans h6
        refine ⟨_, put_get _ (lt_of_get hin), h2, h3, h4, h5, ?_, ?_, h8, ?_⟩
        · rw [hne _ (by rintro rfl; rw [hself'] at hop; cases hop) (lt_of_get hop)]; exact hop
        · rw [List.getElem?_set_ne (Nat.ne_of_lt hlt)]; simp
        · intro hm; have := hN _ hm; rw [← ho'.1] at this; exact Nat.lt_irrefl _ this
      · refine hP _ _ _ hp' (fun a ha => ?_)
        have hlt' : a < h'.length := by rw [ho'.1]; exact hN a (hW a ha)
        rw [List.getElem?_set_ne (fun e => hself (by rw [e]; exact ha)), List.getElem?_append_left hlt']
      · refine Upd.trans (ho'.upd.mono (fun a ha => by simp [ha])) ⟨by simp, fun a ha hna => ?_⟩
        rw [List.getElem?_set_ne (fun e => hna (by simp [e])), List.getElem?_append_left ha]

omit hF hW in
/-- Storing a new implicit input or output. -/
theorem Shape.putImplicit {c : CommandInvocationWithIOVars} {h : Heap} {s : σ} (hs : Shape self mapA N c h) (hp : P s h)
    (i u : Option IOVar) : ∃ o : InvObj, h[self]? = some (.inv o) ∧ o.accessMap = mapA ∧ o.implicitInput = c.implicitInput ∧
      o.implicitOutput = c.implicitOutput ∧
      Shape self mapA N { c with implicitInput := i, implicitOutput := u }
        (h.set self (.inv { o with implicitInput := i, implicitOutput := u })) ∧
      P s (h.set self (.inv { o with implicitInput := i, implicitOutput := u })) ∧
      Upd (self :: W) h (h.set self (.inv { o with implicitInput := i, implicitOutput := u })) := by
  obtain ⟨o, h1, h2, h3, h4, h5, h6, h7, h8, h9⟩ := hs
  refine ⟨o, h1, h2, h4, h5, ⟨_, put_get _ (lt_of_get h1), h2, h3, rfl, rfl, ?_, ?_, h8, h9⟩, ?_, ?_⟩
  · rw [List.getElem?_set_ne (by intro e; rw [← show self = o.flagOptionList from e, h1] at h6; cases h6)]; exact h6
  · rw [List.getElem?_set_ne (by intro e; rw [← show self = o.operandList from e, h1] at h7; cases h7)]; exact h7
  · refine hP _ _ _ hp (fun a ha => ?_)
    rw [List.getElem?_set_ne (fun e => hself (by rw [e]; exact ha))]
  · refine ⟨by simp, fun a _ hna => ?_⟩
    rw [List.getElem?_set_ne (fun e => hna (by simp [e]))]

/-- The traversal on the heap follows the traversal on values. When it raises, the parts of the invocation may have been
changed already, but not if the function leaves all variables as they are. -/
theorem traverse_sim {c : CommandInvocationWithIOVars} {h : Heap} {s : σ} (hs : Shape self mapA N c h)
    (hp : P s h) (hN : ∀ a ∈ N, a < h.length) :
    Out (flatMapAnythingNonNames self fh h) (PashAnn.flatMapAnythingNonNames fp s c)
      (fun _ c' s' h' => Shape self mapA N c' h' ∧ P s' h' ∧ Upd (self :: W) h h')
      (fun h' => ∃ c' s', Shape self mapA N c' h' ∧ P s' h' ∧ Upd (self :: W) h h' ∧ (ReadOnly fp → c' = c)) := by
  unfold flatMapAnythingNonNames PashAnn.flatMapAnythingNonNames
  have s1 := flagOptions_sim hF hP hself hW hs hp hN
  unfold Out at s1 ⊢
  cases r1 : PashAnn.flatMapFlagOptionList fp s c.flagOptionList with
  | error e =>
      rw [r1] at s1
      obtain ⟨h', e', s', hs', hp', hu'⟩ := s1
      rw [bind_error e']
      exact ⟨h', rfl, c, s', hs', hp', hu', fun _ => rfl⟩
  | ok fos =>
      rw [r1] at s1
      obtain ⟨_, h1, e1, hs1, hp1, hu1⟩ := s1
      rw [pyBind_ok, bind_ok e1]
      have hN1 : ∀ a ∈ N, a < h1.length := fun a ha => Nat.lt_of_lt_of_le (hN a ha) hu1.1
      have s2 := operands_sim hF hP hself hW hs1 hp1 hN1
      unfold Out at s2
      simp only at s2 ⊢
      cases r2 : PashAnn.flatMapOperandList fp fos.2 c.operandList with
      | error e =>
          rw [r2] at s2
          obtain ⟨h', e', s', hs', hp', hu'⟩ := s2
          rw [bind_error e']
          exact ⟨h', rfl, _, s', hs', hp', hu1.trans hu', fun hr => by rw [readOnly_flags hr _ _ r1]⟩
      | ok ops =>
          rw [r2] at s2
          obtain ⟨_, h2, e2, hs2, hp2, hu2⟩ := s2
          rw [bind_ok e2]
          have hN2 : ∀ a ∈ N, a < h2.length := fun a ha => Nat.lt_of_lt_of_le (hN1 a ha) hu2.1
          obtain ⟨o, ho, hoa, hoi, hoo, -⟩ := hs2.putImplicit hP hself hp2 none none
          rw [bind_ok (getInv_eq ho), hoi]
          have s3 := implicit_sim hF o hoa c.implicitInput ops.2 h2 ho hp2
          unfold Out at s3
          simp only [pyBind_ok] at s3 ⊢
          cases r3 : PashAnn.flatMapImplicit fp ops.2 c.implicitInput with
          | error e =>
              rw [r3] at s3
              obtain ⟨h', e', s', hp', ho'⟩ := s3
              rw [bind_error e']
              exact ⟨h', rfl, _, s', hs2.only hself hW ho', hp',
                (hu1.trans hu2).trans (ho'.upd.mono (fun a ha => by simp [ha])),
                fun hr => by simp only [readOnly_flags hr _ _ r1, readOnly_operands hr _ _ r2]⟩
          | ok inp =>
              rw [r3] at s3
              obtain ⟨i, h3, e3, rfl, hp3, ho3⟩ := s3
              rw [bind_ok e3]
              have hs3 := hs2.only hself hW ho3
              have hu3 := (hu1.trans hu2).trans (ho3.upd.mono (W' := self :: W) (fun a ha => by simp [ha]))
              obtain ⟨o3, ho3', hoa3, hoi3, hoo3, hs4, hp4, hu4⟩ :=
                hs3.putImplicit hP hself hp3 inp.1 c.implicitOutput
              have ho3x := ho3.2 _ hself ▸ ho3'
              have heq : ({ o3 with implicitInput := inp.1, implicitOutput := c.implicitOutput } : InvObj) =
                  { o3 with implicitInput := inp.1 } := by
                have : o3.implicitOutput = c.implicitOutput := hoo3
                rw [← this]
              rw [heq] at hs4 hp4 hu4
              rw [bind_ok (getInv_eq ho3'), bind_ok (x := put _ _) rfl]
              obtain ⟨o5, ho5, hoa5, hoi5, hoo5, -⟩ := hs4.putImplicit hP hself hp4 none none
              rw [bind_ok (getInv_eq ho5), hoo5]
              have s6 := implicit_sim hF o5 hoa5 c.implicitOutput inp.2 _ ho5 hp4
              unfold Out at s6
              simp only [pyBind_ok] at s6 ⊢
              cases r6 : PashAnn.flatMapImplicit fp inp.2 c.implicitOutput with
              | error e =>
                  rw [r6] at s6
                  obtain ⟨h', e', s', hp', ho'⟩ := s6
                  rw [bind_error e']
                  exact ⟨h', rfl, _, s', hs4.only hself hW ho', hp',
                    (hu3.trans hu4).trans (ho'.upd.mono (fun a ha => by simp [ha])),
                    fun hr => by simp only [readOnly_flags hr _ _ r1, readOnly_operands hr _ _ r2, readOnly_implicit hr _ _ r3]⟩
              | ok out =>
                  rw [r6] at s6
                  obtain ⟨u, h6, e6, rfl, hp6, ho6⟩ := s6
                  rw [bind_ok e6]
                  have hs6 := hs4.only hself hW ho6
                  have hu6 := (hu3.trans hu4).trans (ho6.upd.mono (W' := self :: W) (fun a ha => by simp [ha]))
                  obtain ⟨o7, ho7, hoa7, hoi7, hoo7, hs8, hp8, hu8⟩ :=
                    hs6.putImplicit hP hself hp6 inp.1 out.1
                  have heq : ({ o7 with implicitInput := inp.1, implicitOutput := out.1 } : InvObj) =
                      { o7 with implicitOutput := out.1 } := by
                    have : o7.implicitInput = inp.1 := hoi7
                    rw [← this]
                  rw [heq] at hs8 hp8 hu8
                  rw [bind_ok (getInv_eq ho7)]
                  exact ⟨(), _, rfl, hs8, hp8, hu6.trans hu8⟩

end

theorem readOnly_traverse {σ : Type} {fp : VarFun σ} (hr : ReadOnly fp) {c : CommandInvocationWithIOVars} {s : σ} {r}
    (h : PashAnn.flatMapAnythingNonNames fp s c = .ok r) : r.1 = c := by
  unfold PashAnn.flatMapAnythingNonNames at h
  cases r1 : PashAnn.flatMapFlagOptionList fp s c.flagOptionList with
  | error e => rw [r1] at h; cases h
  | ok fos =>
      rw [r1] at h
      simp only [pyBind_ok] at h
      cases r2 : PashAnn.flatMapOperandList fp fos.2 c.operandList with
      | error e => rw [r2] at h; cases h
      | ok ops =>
          rw [r2] at h
          simp only [pyBind_ok] at h
          cases r3 : PashAnn.flatMapImplicit fp ops.2 c.implicitInput with
          | error e => rw [r3] at h; cases h
          | ok inp =>
              rw [r3] at h
              simp only [pyBind_ok] at h
              cases r4 : PashAnn.flatMapImplicit fp inp.2 c.implicitOutput with
              | error e => rw [r4] at h; cases h
              | ok out =>
                  rw [r4] at h
                  cases h
                  simp only [readOnly_flags hr _ _ r1, readOnly_operands hr _ _ r2, readOnly_implicit hr _ _ r3,
                    readOnly_implicit hr _ _ r4]

/-! The functions applied to variables. -/

theorem getItem_get {m : AccessMap} {v : IOVar} {a : AccessKind} (h : m.getItem v = .ok a) : m.get? v = some a := by
  unfold AccessMap.getItem at h
  cases hg : m.get? v with
  | none => rw [hg] at h; cases h
  | some b => rw [hg] at h; cases h; rfl

/-- The map and a list. -/
def MapAndList (mapA listA : Addr) (s : AccessMap × List VArg) (h : Heap) : Prop :=
  h[mapA]? = some (.map s.1) ∧ h[listA]? = some (.vars s.2)

theorem MapAndList.stable (mapA listA : Addr) : Stable [mapA, listA] (MapAndList mapA listA) := by
  intro s h h' hp hs
  exact ⟨by rw [hs _ (by simp)]; exact hp.1, by rw [hs _ (by simp)]; exact hp.2⟩

/-- Substitution from a list of any elements. -/
def substituteAny (pred : AccessKind → Bool) : VarFun (AccessMap × List VArg) := fun s v => do
  let a ← AccessMap.getItem s.1 v
  if pred a then
    match s.2 with
    | [] => .error .indexError
    | .var newVar :: remaining => do
        let r ← PashAnn.replaceVarConsistently s.1 v newVar
        .ok ([r.1], (r.2, remaining))
    | _ :: _ => .error .outsideModel
  else .ok ([v], s)

theorem replaceVarConsistently_eq {m : AccessMap} {v w : IOVar} {a : AccessKind} (h : m.get? v = some a) :
    PashAnn.replaceVarConsistently m v w = .ok (w, AccessMap.set (m.erase v) w a) := by
  simp [PashAnn.replaceVarConsistently, AccessMap.pop, h, pyAssert, bind, Except.bind]

theorem replaceVarConsistently_none {m : AccessMap} {v w : IOVar} (h : m.get? v = none) :
    PashAnn.replaceVarConsistently m v w = .error .assertionError := by
  simp [PashAnn.replaceVarConsistently, h, pyAssert, bind, Except.bind]

theorem substituteAny_sim (self mapA listA : Addr) (pred : AccessKind → Bool) (hne : mapA ≠ listA) (hself : self ≠ listA) :
    FSim self mapA [mapA, listA] (MapAndList mapA listA) (substituteAny pred) (substituteFun self pred listA) := by
  intro s v h o ho ha hp
  unfold substituteFun substituteAny
  subst ha
  rw [bind_ok (getInv_eq ho), bind_ok (getMap_eq hp.1)]
  cases hg : s.1.getItem v with
  | error e => exact ⟨h, rfl, rfl⟩
  | ok a =>
      rw [bind_ok (x := liftPy _) rfl, pyBind_ok]
      by_cases hpa : pred a = true
      · rw [if_pos hpa, if_pos hpa]
        obtain ⟨m, l⟩ := s
        have hl : h[listA]? = some (.vars l) := hp.2
        match l, hl with
        | [], hl =>
            have : popFront listA h = (.error .indexError, h) := by
              unfold popFront; rw [bind_ok (getVars_eq hl)]; rfl
            rw [bind_error this]
            exact ⟨h, rfl, rfl⟩
        | .str t :: rest, hl =>
            have : popFront listA h = (.error .outsideModel, h) := by
              unfold popFront; rw [bind_ok (getVars_eq hl)]; rfl
            rw [bind_error this]
            exact ⟨h, rfl, rfl⟩
        | .io t :: rest, hl =>
            have : popFront listA h = (.error .outsideModel, h) := by
              unfold popFront; rw [bind_ok (getVars_eq hl)]; rfl
            rw [bind_error this]
            exact ⟨h, rfl, rfl⟩
        | .var w :: rest, hl =>
            have hpop : popFront listA h = (.ok w, h.set listA (.vars rest)) := by
              unfold popFront; rw [bind_ok (getVars_eq hl)]; rfl
            have ho1 : (h.set listA (.vars rest))[self]? = some (.inv o) := by
              rw [List.getElem?_set_ne (fun e => hself e.symm)]; exact ho
            have hm1 : (h.set listA (.vars rest))[o.accessMap]? = some (.map m) := by
              rw [List.getElem?_set_ne (fun e => hne e.symm)]; exact hp.1
            have hr := replaceVarConsistently_eq (w := w) (getItem_get hg)
            rw [bind_ok hpop]
            simp only [hr, pyBind_ok]
            refine ⟨[w], (h.set listA (.vars rest)).set o.accessMap (.map (AccessMap.set (m.erase v) w a)), ?_, rfl, ⟨?_, ?_⟩, ?_⟩
            · unfold replaceVarConsistently
              have hr' : PashAnn.replaceVarConsistently m v w = .ok (w, AccessMap.set (m.erase v) w a) := hr
              rw [bind_def, bind_ok (getInv_eq ho1), bind_ok (getMap_eq hm1), hr', bind_ok (x := liftPy _) rfl]
              rfl
            · exact put_get _ (lt_of_get hm1)
            · rw [List.getElem?_set_ne hne]; exact put_get _ (lt_of_get hl)
            · refine ⟨by simp, fun b hb => ?_⟩
              rw [List.getElem?_set_ne (fun e => hb (by simp [e])), List.getElem?_set_ne (fun e => hb (by simp [e]))]
      · rw [if_neg hpa, if_neg hpa]
        exact ⟨_, h, rfl, rfl, hp, Only.refl _ _⟩

theorem collect_sim (self mapA acc : Addr) (pred : AccessKind → Bool) (m : AccessMap) (hne : mapA ≠ acc) :
    FSim self mapA [mapA, acc] (fun l h => MapAndList mapA acc (m, l.map VArg.var) h) (PashAnn.collectFun pred m)
      (collectFun self pred acc) := by
  intro s v h o ho ha hp
  unfold collectFun PashAnn.collectFun
  subst ha
  rw [bind_ok (getInv_eq ho), bind_ok (getMap_eq hp.1)]
  cases hg : m.getItem v with
  | error e => exact ⟨h, rfl, rfl⟩
  | ok a =>
      simp only
      rw [bind_ok (x := liftPy _) rfl, pyBind_ok]
      by_cases hpa : pred a = true
      · rw [if_pos hpa, if_pos hpa]
        refine ⟨[v], h.set acc (.vars ((s ++ [v]).map VArg.var)), ?_, rfl, ⟨?_, ?_⟩, ?_⟩
        · rw [bind_ok (getVars_eq hp.2)]; simp [bind_def, put, pure_def]
        · rw [List.getElem?_set_ne (fun e => hne e.symm)]; exact hp.1
        · exact put_get _ (lt_of_get hp.2)
        · exact ⟨by simp, fun b hb => List.getElem?_set_ne (fun e => hb (by simp [e]))⟩
      · rw [if_neg hpa, if_neg hpa]
        exact ⟨_, h, rfl, rfl, hp, Only.refl _ _⟩

theorem collect_readOnly (pred : AccessKind → Bool) (m : AccessMap) : ReadOnly (PashAnn.collectFun pred m) := by
  intro s v r h
  unfold PashAnn.collectFun at h
  cases hg : m.getItem v with
  | error e => rw [hg] at h; cases h
  | ok a => rw [hg] at h; cases h; rfl

/-- The map alone. -/
def MapAt (mapA : Addr) (m : AccessMap) (h : Heap) : Prop := h[mapA]? = some (.map m)

theorem MapAt.stable (mapA : Addr) : Stable [mapA] (MapAt mapA) := by
  intro s h h' hp hs
  show h'[mapA]? = _
  rw [hs _ (by simp)]; exact hp

theorem replace_sim (self mapA : Addr) (v : Option IOVar) (w : IOVar) :
    FSim self mapA [mapA] (MapAt mapA) (PashAnn.replaceFun v w) (replaceFun self v w) := by
  intro m x h o ho ha hp
  unfold replaceFun PashAnn.replaceFun
  subst ha
  by_cases hx : some x = v
  · rw [if_pos hx, if_pos hx]
    unfold replaceVarConsistently
    rw [bind_def, bind_ok (getInv_eq ho), bind_ok (getMap_eq hp)]
    cases hg : m.get? x with
    | none =>
        rw [replaceVarConsistently_none hg]
        exact ⟨h, rfl, rfl⟩
    | some a =>
        rw [replaceVarConsistently_eq hg]
        refine ⟨[w], h.set o.accessMap (.map (AccessMap.set (m.erase x) w a)), rfl, rfl, put_get _ (lt_of_get hp), ?_⟩
        exact put_only _ _ _
  · rw [if_neg hx, if_neg hx]
    exact ⟨_, h, rfl, rfl, hp, Only.refl _ _⟩

theorem remove_sim (self mapA : Addr) (pred : AccessKind → Bool) :
    FSim self mapA [mapA] (MapAt mapA) (PashAnn.removeFun pred) (removeFun self pred) := by
  intro m v h o ho ha hp
  unfold removeFun PashAnn.removeFun
  subst ha
  rw [bind_ok (getInv_eq ho), bind_ok (getMap_eq hp)]
  cases hg : m.getItem v with
  | error e => exact ⟨h, rfl, rfl⟩
  | ok a =>
      rw [bind_ok (x := liftPy _) rfl, pyBind_ok]
      by_cases hpa : pred a = true
      · rw [if_pos hpa, if_pos hpa]
        have : m.pop v = .ok (a, m.erase v) := by simp [AccessMap.pop, getItem_get hg]
        rw [this]
        refine ⟨[], h.set o.accessMap (.map (m.erase v)), rfl, rfl, put_get _ (lt_of_get hp), put_only _ _ _⟩
      · rw [if_neg hpa, if_neg hpa]
        exact ⟨_, h, rfl, rfl, hp, Only.refl _ _⟩

end PashAnn.Heap
