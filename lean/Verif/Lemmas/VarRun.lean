import Verif.Lemmas.Vars

/-! What the functions used in traversals do along a list of variables. -/

namespace PashAnn
open Spec

theorem get_erase (m : AccessMap) (k v : IOVar) :
    AccessMap.get? (AccessMap.erase m k) v = if v = k then none else AccessMap.get? m v := by
  unfold AccessMap.get? AccessMap.erase
  induction m with
  | nil => simp
  | cons p m ih =>
      obtain ⟨a, b⟩ := p
      by_cases hak : a = k
      · subst hak
        simp only [List.filter_cons, beq_self_eq_true, Bool.not_true, Bool.false_eq_true, if_false, ih,
          List.lookup_cons]
        by_cases hv : v = a
        · simp [hv]
        · simp [hv, beq_eq_false_iff_ne.2 hv]
      · simp only [List.filter_cons, beq_eq_false_iff_ne.2 hak, Bool.not_false, if_true,
          List.lookup_cons, ih]
        by_cases hv : v = a
        · subst hv; simp [hak]
        · simp only [beq_eq_false_iff_ne.2 hv]

theorem get_set (m : AccessMap) (k v : IOVar) (a : AccessKind) :
    AccessMap.get? (AccessMap.set m k a) v = if v = k then some a else AccessMap.get? m v := by
  unfold AccessMap.set
  split
  · next hs =>
      unfold AccessMap.get? at hs ⊢
      induction m with
      | nil => simp at hs
      | cons p m ih =>
          obtain ⟨j, b⟩ := p
          by_cases hj : j = k
          · subst hj
            have hrest : ∀ l : AccessMap, v ≠ j →
                List.lookup v (l.map fun p => if p.1 = j then (j, a) else p) = List.lookup v l := by
              intro l hv
              induction l with
              | nil => rfl
              | cons q l ih2 =>
                  obtain ⟨i, c⟩ := q
                  by_cases hi : i = j
                  · subst hi; simp [List.lookup_cons, beq_eq_false_iff_ne.2 hv, ih2]
                  · simp [List.lookup_cons, hi, ih2]
            by_cases hv : v = j
            · simp [hv]
            · have := hrest m hv
              simp [List.lookup_cons, beq_eq_false_iff_ne.2 hv, hv, this]
          · have hk : (k == j) = false := beq_eq_false_iff_ne.2 (Ne.symm hj)
            have hs' : (List.lookup k m).isSome = true := by simpa [List.lookup_cons, hk] using hs
            have := ih hs'
            by_cases hv : v = j
            · subst hv; simp [hj]
            · simp [List.lookup_cons, beq_eq_false_iff_ne.2 hv, hj, this]
  · next hs =>
      unfold AccessMap.get? at hs ⊢
      induction m with
      | nil => by_cases hv : v = k <;> simp [List.lookup_cons, hv, beq_eq_false_iff_ne.2]
      | cons p m ih =>
          obtain ⟨j, b⟩ := p
          by_cases hj : k = j
          · subst hj; simp at hs
          · have hk : (k == j) = false := beq_eq_false_iff_ne.2 hj
            have hs' : ¬ (List.lookup k m).isSome = true := by simpa [List.lookup_cons, hk] using hs
            have := ih hs'
            by_cases hv : v = j
            · subst hv; simp [Ne.symm hj]
            · simp [List.lookup_cons, beq_eq_false_iff_ne.2 hv, this]

theorem get_setAll (m : AccessMap) (ks : List IOVar) (v : IOVar) (a : AccessKind) :
    AccessMap.get? (AccessMap.setAll m ks a) v = if v ∈ ks then some a else AccessMap.get? m v := by
  unfold AccessMap.setAll
  induction ks generalizing m with
  | nil => simp
  | cons k ks ih =>
      rw [List.foldl_cons, ih, get_set]
      by_cases h1 : v ∈ ks
      · simp [h1]
      · by_cases h2 : v = k <;> simp [h1, h2]

theorem get_ofKeys (ks : List IOVar) (v : IOVar) (a : AccessKind) :
    AccessMap.get? (AccessMap.ofKeys ks a) v = if v ∈ ks then some a else none := by
  have := get_setAll [] ks v a
  simpa [AccessMap.ofKeys, AccessMap.setAll, AccessMap.get?] using this

/-! Substitution. -/

/-- One step of a substitution. -/
def gSub (a : AccessKind) (s : AccessMap × List IOVar) (v : IOVar) : Py (IOVar × (AccessMap × List IOVar)) :=
  match AccessMap.get? s.1 v with
  | none => .error .keyError
  | some b =>
      if b = a then
        match s.2 with
        | [] => .error .indexError
        | n :: ns => .ok (n, (AccessMap.set (AccessMap.erase s.1 v) n a, ns))
      else .ok (v, s)

theorem substituteFun_eq (pred : AccessKind → Bool) (a : AccessKind) (hp : ∀ b, pred b = decide (b = a)) :
    substituteFun pred = single (gSub a) := by
  funext s v
  unfold substituteFun single gSub AccessMap.getItem
  cases hg : AccessMap.get? s.1 v with
  | none => rfl
  | some b =>
      simp only [bind, Except.bind, hp]
      by_cases hb : b = a
      · subst hb
        simp only [decide_true, if_true]
        cases s.2 with
        | nil => rfl
        | cons n ns => simp [replaceVarConsistently, AccessMap.pop, hg, pyAssert, bind, Except.bind]
      · simp [hb]

theorem gSub_run (a : AccessKind) (old ns : List IOVar) (m : AccessMap) (hnd : old.Nodup)
    (hm : ∀ v ∈ old, AccessMap.get? m v ≠ none) (hf : ∀ n ∈ ns, n ∉ old) :
    let k := (old.filter (fun v => AccessMap.get? m v = some a)).length
    (k ≤ ns.length → ∃ m', run (gSub a) (m, ns) old =
        .ok (replaceInOrder (fun v => AccessMap.get? m v = some a) old ns, (m', ns.drop k)) ∧
      ∀ v, AccessMap.get? m' v = if v ∈ ns.take k then some a
        else if v ∈ old ∧ AccessMap.get? m v = some a then none else AccessMap.get? m v) ∧
    (ns.length < k → run (gSub a) (m, ns) old = .error .indexError) := by
  induction old generalizing ns m with
  | nil =>
      refine ⟨fun _ => ⟨m, by simp [run, replaceInOrder], fun v => by simp⟩, fun h => by simp at h⟩
  | cons v old ih =>
      have hvo : v ∉ old := (List.nodup_cons.1 hnd).1
      have hnd' := (List.nodup_cons.1 hnd).2
      cases hg : AccessMap.get? m v with
      | none => exact absurd hg (hm v (by simp))
      | some b =>
          by_cases hb : b = a
          · subst hb
            have hk : ((v :: old).filter (fun v => AccessMap.get? m v = some b)).length =
                (old.filter (fun v => AccessMap.get? m v = some b)).length + 1 := by simp [hg]
            cases ns with
            | nil =>
                refine ⟨fun h => ?_, fun _ => ?_⟩
                · rw [hk] at h; simp at h
                · simp [run, gSub, hg, bind, Except.bind]
            | cons n ns =>
                have hnv : n ≠ v := fun h => hf n (by simp) (by simp [h])
                have hno : n ∉ old := fun h => hf n (by simp) (by simp [h])
                have hget : ∀ w ∈ old, AccessMap.get? (AccessMap.set (AccessMap.erase m v) n b) w =
                    AccessMap.get? m w := by
                  intro w hw
                  have h1 : w ≠ n := fun h => hno (h ▸ hw)
                  have h2 : w ≠ v := fun h => hvo (h ▸ hw)
                  rw [get_set, if_neg h1, get_erase, if_neg h2]
                have hfil : old.filter (fun w => AccessMap.get? (AccessMap.set (AccessMap.erase m v) n b) w = some b) =
                    old.filter (fun w => AccessMap.get? m w = some b) :=
                  List.filter_congr (fun w hw => by rw [hget w hw])
                have hrep : ∀ (l l' : List IOVar), (∀ w ∈ l, w ∈ old) →
                    replaceInOrder (fun w => AccessMap.get? (AccessMap.set (AccessMap.erase m v) n b) w = some b) l l' =
                    replaceInOrder (fun w => AccessMap.get? m w = some b) l l' := by
                  intro l
                  induction l with
                  | nil => intros; rfl
                  | cons x l ihl =>
                      intro l' hl
                      simp only [replaceInOrder, hget x (hl x (by simp))]
                      cases l' with
                      | nil => simp only [ihl _ (fun w hw => hl w (by simp [hw]))]
                      | cons y l' => simp only [ihl _ (fun w hw => hl w (by simp [hw]))]
                have := ih ns (AccessMap.set (AccessMap.erase m v) n b) hnd'
                  (fun w hw => by rw [hget w hw]; exact hm w (by simp [hw]))
                  (fun x hx h => hf x (by simp [hx]) (by simp [h]))
                simp only [hfil] at this
                obtain ⟨h1, h2⟩ := this
                constructor
                · intro hle
                  rw [hk] at hle
                  obtain ⟨m', hr, hm'⟩ := h1 (by simpa using hle)
                  refine ⟨m', ?_, ?_⟩
                  · simp only [run, gSub, hg, if_true, bind, Except.bind, hr, hk, List.drop_succ_cons]
                    rw [hrep _ _ (fun _ h => h)]
                    simp [replaceInOrder, hg]
                  · intro w
                    rw [hm', hk, List.take_succ_cons]
                    by_cases hw1 : w ∈ ns.take (old.filter (fun w => AccessMap.get? m w = some b)).length
                    · simp [hw1]
                    · by_cases hwn : w = n
                      · subst hwn
                        simp [hw1, hno, get_set]
                      · have hw2 : AccessMap.get? (AccessMap.set (AccessMap.erase m v) n b) w =
                            if w = v then none else AccessMap.get? m w := by
                          rw [get_set, if_neg hwn, get_erase]
                        simp only [hw1, if_false, hw2, List.mem_cons, hwn, false_or]
                        by_cases hwv : w = v
                        · subst hwv; simp [hg]
                        · simp [hwv]
                · intro hlt
                  rw [hk] at hlt
                  simp only [run, gSub, hg, if_true, bind, Except.bind, h2 (by simpa using hlt)]
          · have hba : ¬ (AccessMap.get? m v = some a) := by rw [hg]; simp [hb]
            have hk : (v :: old).filter (fun v => AccessMap.get? m v = some a) =
                old.filter (fun v => AccessMap.get? m v = some a) := by simp [hba]
            have := ih ns m hnd' (fun w hw => hm w (by simp [hw])) (fun x hx h => hf x hx (by simp [h]))
            obtain ⟨h1, h2⟩ := this
            rw [hk]
            constructor
            · intro hle
              obtain ⟨m', hr, hm'⟩ := h1 hle
              refine ⟨m', ?_, ?_⟩
              · simp only [run, gSub, hg, hb, if_false, bind, Except.bind, hr]
                simp [replaceInOrder, hba]
              · intro w
                rw [hm']
                by_cases hwv : w = v
                · subst hwv; simp [hvo, hba]
                · simp [hwv]
            · intro hlt
              simp only [run, gSub, hg, hb, if_false, bind, Except.bind, h2 hlt]

/-- A variable without access entry makes a substitution fail, whatever the new variables are, provided it is
not itself one of them. -/
theorem gSub_run_missing (a : AccessKind) (old ns : List IOVar) (m : AccessMap) (v : IOVar) (hv : v ∈ old)
    (hg : AccessMap.get? m v = none) (hn : v ∉ ns) : ∃ e, run (gSub a) (m, ns) old = .error e := by
  induction old generalizing ns m with
  | nil => simp at hv
  | cons w old ih =>
      by_cases hwv : w = v
      · subst hwv; exact ⟨_, by simp [run, gSub, hg, bind, Except.bind]; rfl⟩
      · have hv' : v ∈ old := by
          rcases List.mem_cons.1 hv with h | h
          · exact absurd h.symm hwv
          · exact h
        simp only [run, gSub, bind, Except.bind]
        cases hgw : AccessMap.get? m w with
        | none => exact ⟨_, rfl⟩
        | some b =>
            by_cases hb : b = a
            · cases ns with
              | nil => exact ⟨_, by simp [hb]; rfl⟩
              | cons n ns =>
                  have hvn : v ≠ n := fun h => hn (by simp [h])
                  obtain ⟨e, he⟩ := ih ns (AccessMap.set (AccessMap.erase m w) n a) hv'
                    (by rw [get_set, if_neg hvn, get_erase, if_neg (fun h => hwv h.symm)]; exact hg)
                    (fun h => hn (by simp [h]))
                  exact ⟨e, by simp [hb, he]⟩
            · obtain ⟨e, he⟩ := ih ns m hv' hg hn
              exact ⟨e, by simp [hb, he]⟩

/-! Collecting. -/

def gCollect (pred : AccessKind → Bool) (m : AccessMap) (s : List IOVar) (v : IOVar) : Py (IOVar × List IOVar) :=
  match AccessMap.get? m v with
  | none => .error .keyError
  | some a => .ok (v, if pred a then s ++ [v] else s)

theorem collectFun_eq (pred : AccessKind → Bool) (m : AccessMap) : collectFun pred m = single (gCollect pred m) := by
  funext s v
  unfold collectFun single gCollect AccessMap.getItem
  cases AccessMap.get? m v <;> rfl

theorem gCollect_run (pred : AccessKind → Bool) (m : AccessMap) (old acc : List IOVar)
    (hm : ∀ v ∈ old, AccessMap.get? m v ≠ none) :
    run (gCollect pred m) acc old = .ok (old, acc ++ old.filter (fun v => ((AccessMap.get? m v).map pred).getD false)) := by
  induction old generalizing acc with
  | nil => simp [run]
  | cons v old ih =>
      cases hg : AccessMap.get? m v with
      | none => exact absurd hg (hm v (by simp))
      | some a =>
          simp only [run, gCollect, hg, bind, Except.bind, ih _ (fun w hw => hm w (by simp [hw])), List.filter_cons,
            Option.map_some, Option.getD_some]
          cases pred a <;> simp

theorem gCollect_run_missing (pred : AccessKind → Bool) (m : AccessMap) (old acc : List IOVar) (v : IOVar)
    (hv : v ∈ old) (hg : AccessMap.get? m v = none) : run (gCollect pred m) acc old = .error .keyError := by
  induction old generalizing acc with
  | nil => simp at hv
  | cons w old ih =>
      cases hgw : AccessMap.get? m w with
      | none => simp [run, gCollect, hgw, bind, Except.bind]
      | some a =>
          have hv' : v ∈ old := by
            rcases List.mem_cons.1 hv with h | h
            · subst h; rw [hg] at hgw; cases hgw
            · exact h
          simp only [run, gCollect, hgw, bind, Except.bind, ih _ hv']

/-! Renaming. -/

def gReplace (fromVar : Option IOVar) (toVar : IOVar) (m : AccessMap) (v : IOVar) : Py (IOVar × AccessMap) :=
  if some v = fromVar then
    match AccessMap.get? m v with
    | none => .error .assertionError
    | some a => .ok (toVar, AccessMap.set (AccessMap.erase m v) toVar a)
  else .ok (v, m)

theorem replaceFun_eq (fromVar : Option IOVar) (toVar : IOVar) :
    replaceFun fromVar toVar = single (gReplace fromVar toVar) := by
  funext m v
  unfold replaceFun single gReplace
  by_cases hv : some v = fromVar
  · simp only [hv, if_true]
    cases hg : AccessMap.get? m v with
    | none => simp [replaceVarConsistently, hg, pyAssert, bind, Except.bind]
    | some a => simp [replaceVarConsistently, hg, pyAssert, AccessMap.pop, bind, Except.bind]
  · simp [hv, bind, Except.bind]

theorem gReplace_run_none (fromVar : Option IOVar) (toVar : IOVar) (m : AccessMap) (old : List IOVar)
    (h : ∀ v, fromVar = some v → v ∉ old) : run (gReplace fromVar toVar) m old = .ok (old, m) := by
  induction old with
  | nil => rfl
  | cons v old ih =>
      have hv : ¬ some v = fromVar := fun he => h v he.symm (by simp)
      simp [run, gReplace, hv, bind, Except.bind, ih (fun w hw hm => h w hw (by simp [hm]))]

theorem gReplace_run_one (v toVar : IOVar) (m : AccessMap) (old : List IOVar) (h : old.count v = 1) :
    run (gReplace (some v) toVar) m old = match AccessMap.get? m v with
      | none => .error .assertionError
      | some a => .ok (old.map (fun w => if w = v then toVar else w), AccessMap.set (AccessMap.erase m v) toVar a) := by
  induction old with
  | nil => simp at h
  | cons w old ih =>
      by_cases hw : w = v
      · subst hw
        have h0 : w ∉ old := by
          rw [List.count_cons_self] at h
          exact List.count_eq_zero.1 (by omega)
        cases hg : AccessMap.get? m w with
        | none => simp [run, gReplace, hg, bind, Except.bind]
        | some a =>
            have hmap : old.map (fun x => if x = w then toVar else x) = old := by
              conv => rhs; rw [← List.map_id old]
              apply List.map_congr_left
              intro x hx
              have : x ≠ w := fun h => h0 (h ▸ hx)
              simp [this]
            have := gReplace_run_none (some w) toVar (AccessMap.set (AccessMap.erase m w) toVar a) old
              (fun x hx => by cases hx; exact h0)
            simp [run, gReplace, hg, bind, Except.bind, this, hmap]
      · have hc : old.count v = 1 := by
          rwa [List.count_cons_of_ne hw] at h
        have hsv : ¬ some w = some v := fun h => hw (Option.some.inj h)
        simp only [run, gReplace, hsv, if_false, bind, Except.bind]
        have ih := ih hc
        cases hg : AccessMap.get? m v with
        | none => rw [hg] at ih; simp [ih]
        | some a => rw [hg] at ih; simp [ih, hw]

theorem gReplace_run_two (v toVar : IOVar) (m : AccessMap) (old : List IOVar) (hne : v ≠ toVar)
    (h : 2 ≤ old.count v) : run (gReplace (some v) toVar) m old = .error .assertionError := by
  induction old with
  | nil => simp at h
  | cons w old ih =>
      by_cases hw : w = v
      · subst hw
        cases hg : AccessMap.get? m w with
        | none => simp [run, gReplace, hg, bind, Except.bind]
        | some a =>
            have hno : AccessMap.get? (AccessMap.set (AccessMap.erase m w) toVar a) w = none := by
              rw [get_set, if_neg hne, get_erase, if_pos rfl]
            have herr : ∀ (l : List IOVar) (m' : AccessMap), AccessMap.get? m' w = none → w ∈ l →
                run (gReplace (some w) toVar) m' l = .error .assertionError := by
              intro l
              induction l with
              | nil => intro _ _ h; simp at h
              | cons x l ihl =>
                  intro m' hm' hx
                  by_cases hxw : x = w
                  · subst hxw; simp [run, gReplace, hm', bind, Except.bind]
                  · have hx' : w ∈ l := by
                      rcases List.mem_cons.1 hx with h | h
                      · exact absurd h.symm hxw
                      · exact h
                    simp [run, gReplace, hxw, bind, Except.bind, ihl m' hm' hx']
            have hmem : w ∈ old := by
              rw [List.count_cons_self] at h
              exact List.count_pos_iff.1 (by omega)
            simp [run, gReplace, hg, bind, Except.bind, herr old _ hno hmem]
      · have hc : 2 ≤ old.count v := by rwa [List.count_cons_of_ne hw] at h
        have hsv : ¬ some w = some v := fun h => hw (Option.some.inj h)
        simp only [run, gReplace, hsv, if_false, bind, Except.bind, ih hc]

theorem gReplace_run_same (v : IOVar) (m : AccessMap) (old : List IOVar) (r : List IOVar × AccessMap)
    (h : run (gReplace (some v) v) m old = .ok r) : r.1 = old ∧ (v ∈ old → AccessMap.get? m v ≠ none) ∧
      ∀ x, AccessMap.get? r.2 x = AccessMap.get? m x := by
  induction old generalizing m r with
  | nil => cases h; exact ⟨rfl, fun h => by simp at h, fun _ => rfl⟩
  | cons w old ih =>
      by_cases hw : w = v
      · subst hw
        cases hg : AccessMap.get? m w with
        | none => simp [run, gReplace, hg, bind, Except.bind] at h
        | some a =>
            simp only [run, gReplace, hg, if_true, bind, Except.bind] at h
            cases hr : run (gReplace (some w) w) (AccessMap.set (AccessMap.erase m w) w a) old with
            | error e => rw [hr] at h; cases h
            | ok r' =>
                rw [hr] at h; cases h
                obtain ⟨h1, _, h3⟩ := ih _ _ hr
                refine ⟨by simp only [h1], fun _ => by simp, fun x => ?_⟩
                simp only [h3, get_set, get_erase]
                by_cases hx : x = w
                · subst hx; simp [hg]
                · simp [hx]
      · have hsv : ¬ some w = some v := fun h => hw (Option.some.inj h)
        simp only [run, gReplace, hsv, if_false, bind, Except.bind] at h
        cases hr : run (gReplace (some v) v) m old with
        | error e => rw [hr] at h; cases h
        | ok r' =>
            rw [hr] at h; cases h
            obtain ⟨h1, h2, h3⟩ := ih _ _ hr
            refine ⟨by simp only [h1], fun hm => ?_, h3⟩
            rcases List.mem_cons.1 hm with hm | hm
            · exact absurd hm.symm hw
            · exact h2 hm

end PashAnn
