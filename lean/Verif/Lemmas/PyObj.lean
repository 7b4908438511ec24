import Verif.Model.PyObj

/-! Lemmas about `==` on Python values. -/

namespace PashAnn

theorem PyDict.keys_length : ∀ d : PyDict, d.keys.length = d.length
  | .nil => rfl
  | .cons k v d => by simp [keys, length, PyDict.keys_length d]

theorem PyDict.get?_none : ∀ {d : PyDict} {k : PyKey}, d.get? k = Option.none ↔ k ∉ d.keys
  | .nil, k => by simp [get?, keys]
  | .cons k' v d, k => by
      have := PyDict.get?_none (d := d) (k := k)
      by_cases h : k' = k
      · simp [get?, keys, h]
      · simp [get?, keys, h, Ne.symm h, this]

theorem PyDict.get?_mem {d : PyDict} {k : PyKey} : k ∈ d.keys ↔ ∃ v, d.get? k = some v := by
  have := PyDict.get?_none (d := d) (k := k)
  cases h : d.get? k with
  | none => rw [h] at this; simp at this; simp [this]
  | some v => rw [h] at this; simp at this; simp [this]

theorem PyDict.keys_nodup : ∀ {d : PyDict}, d.wf → d.keys.Nodup
  | .nil, _ => List.nodup_nil
  | .cons k v d, h => by
      rw [wf] at h
      exact List.nodup_cons.2 ⟨h.1, keys_nodup h.2.2⟩

/-- `sub` as a statement about lookups. -/
theorem PyDict.sub_iff : ∀ {d e : PyDict}, d.wf →
    (d.sub e = true ↔ ∀ k v, d.get? k = some v → ∃ w, e.get? k = some w ∧ v.eq w = true)
  | .nil, e, _ => by simp [sub, get?]
  | .cons k v d, e, h => by
      rw [wf] at h
      have ih := PyDict.sub_iff (e := e) h.2.2
      have hk := PyDict.get?_none.2 h.1
      rw [sub]
      constructor
      · intro hs k' v' hv
        split at hs
        · cases hs
        · rename_i w hw
          rw [Bool.and_eq_true] at hs
          rw [get?] at hv
          by_cases hkk : k = k'
          · rw [if_pos hkk] at hv; cases hv; subst hkk; exact ⟨w, hw, hs.1⟩
          · rw [if_neg hkk] at hv; exact ih.1 hs.2 k' v' hv
      · intro hs
        obtain ⟨w, hw, hvw⟩ := hs k v (by simp [get?])
        rw [hw]
        simp only [hvw, Bool.true_and]
        refine ih.2 (fun k' v' hv => hs k' v' ?_)
        rw [get?, if_neg, hv]
        rintro rfl
        rw [hk] at hv; cases hv

/-- A duplicate-free list included in another that is no longer contains it. -/
theorem subset_of_length {l m : List PyKey} (hl : l.Nodup) (h : ∀ x ∈ l, x ∈ m) (hlen : m.length ≤ l.length) :
    ∀ x ∈ m, x ∈ l := by
  induction l generalizing m with
  | nil => intro x hx; cases m with
    | nil => cases hx
    | cons a m => simp at hlen
  | cons a l ih =>
      intro x hx
      rw [List.nodup_cons] at hl
      by_cases hxa : x = a
      · simp [hxa]
      · have ha : a ∈ m := h a (by simp)
        have := ih (m := m.erase a) hl.2 (fun y hy => by
          rw [List.mem_erase_of_ne]
          · exact h y (by simp [hy])
          · rintro rfl; exact hl.1 hy) (by rw [List.length_erase_of_mem ha]; simp at hlen; omega) x (by
          rwa [List.mem_erase_of_ne hxa])
        simp [this]

theorem PyDict.get?_wf : ∀ {d : PyDict} {k : PyKey} {v : PyVal}, d.wf → d.get? k = some v → v.wf
  | .nil, _, _, _, h => by cases h
  | .cons k' v' d, k, v, hw, h => by
      rw [wf] at hw
      rw [get?] at h
      split at h
      · cases h; exact hw.2.1
      · exact PyDict.get?_wf hw.2.2 h

/-- Equal dictionaries have the same keys, if they have unique keys. -/
theorem PyDict.keys_of_sub {d e : PyDict} (hd : d.wf) (hlen : d.length = e.length) (h : d.sub e = true) :
    ∀ k, k ∈ e.keys ↔ k ∈ d.keys := by
  have hsub : ∀ k ∈ d.keys, k ∈ e.keys := by
    intro k hk
    obtain ⟨v, hv⟩ := PyDict.get?_mem.1 hk
    obtain ⟨w, hw, _⟩ := (PyDict.sub_iff hd).1 h k v hv
    exact PyDict.get?_mem.2 ⟨w, hw⟩
  intro k
  exact ⟨subset_of_length (keys_nodup hd) hsub (by rw [keys_length, keys_length]; omega) k, hsub k⟩

theorem PyDict.length_of_keys {d e : PyDict} (hd : d.wf) (he : e.wf) (h : ∀ k, k ∈ e.keys ↔ k ∈ d.keys) :
    d.length = e.length := by
  have aux : ∀ l m : List PyKey, l.Nodup → (∀ x ∈ l, x ∈ m) → l.length ≤ m.length := by
    intro l
    induction l with
    | nil => intros; simp
    | cons a l ih =>
        intro m hl hs
        rw [List.nodup_cons] at hl
        have ha : a ∈ m := hs a (by simp)
        have := ih (m.erase a) hl.2 (fun y hy => by
          rw [List.mem_erase_of_ne]
          · exact hs y (by simp [hy])
          · rintro rfl; exact hl.1 hy)
        rw [List.length_erase_of_mem ha] at this
        have : 0 < m.length := List.length_pos_of_mem ha
        simp only [List.length_cons]; omega
  have h1 := aux _ _ (keys_nodup hd) (fun x hx => (h x).2 hx)
  have h2 := aux _ _ (keys_nodup he) (fun x hx => (h x).1 hx)
  rw [keys_length, keys_length] at h1 h2
  omega

/-- Equality of dictionaries, extensionally. -/
theorem PyDict.eq_iff {d e : PyDict} (hd : d.wf) (he : e.wf) :
    (d.length == e.length && d.sub e) = true ↔ (∀ k, k ∈ e.keys ↔ k ∈ d.keys) ∧
      ∀ k v w, d.get? k = some v → e.get? k = some w → v.eq w = true := by
  rw [Bool.and_eq_true, beq_iff_eq]
  constructor
  · rintro ⟨hl, hs⟩
    refine ⟨keys_of_sub hd hl hs, fun k v w hv hw => ?_⟩
    obtain ⟨w', hw', h⟩ := (sub_iff hd).1 hs k v hv
    rw [hw] at hw'; cases hw'; exact h
  · rintro ⟨hk, h⟩
    refine ⟨length_of_keys hd he hk, (sub_iff hd).2 (fun k v hv => ?_)⟩
    obtain ⟨w, hw⟩ := get?_mem.1 ((hk k).2 (get?_mem.2 ⟨v, hv⟩))
    exact ⟨w, hw, h k v w hv hw⟩

/-- What holds of every item of a dictionary. -/
def PyDict.All (P : PyVal → Prop) : PyDict → Prop
  | .nil => True
  | .cons _ v d => P v ∧ d.All P

theorem PyDict.All.get {P : PyVal → Prop} : ∀ {d : PyDict} {k : PyKey} {v : PyVal}, d.All P → d.get? k = some v → P v
  | .nil, _, _, _, h => by cases h
  | .cons k' v' d, k, v, hw, h => by
      rw [All] at hw
      rw [get?] at h
      split at h
      · cases h; exact hw.1
      · exact PyDict.All.get hw.2 h

/-- Induction on values: the induction hypothesis holds for all elements and items. -/
theorem PyVal.ind {P : PyVal → Prop} {Q : PyList → Prop} (hn : P .none) (hi : ∀ i, P (.int i)) (hs : ∀ s, P (.str s))
    (he : ∀ c m, P (.enum c m)) (ho : ∀ i, P (.opaque i)) (hl : ∀ l, Q l → P (.list l))
    (hd : ∀ d, d.All P → P (.dict d)) (hc : ∀ c d, d.All P → P (.obj c d)) (hnil : Q .nil)
    (hcons : ∀ v l, P v → Q l → Q (.cons v l)) (v : PyVal) : P v :=
  PyVal.rec (motive_1 := P) (motive_2 := Q) (motive_3 := fun d => d.All P) hn hi hs he hl hd hc ho hnil hcons trivial
    (fun _ _ _ h h' => ⟨h, h'⟩) v

end PashAnn
