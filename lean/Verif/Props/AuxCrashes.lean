import Verif.Lemmas.AuxCrashes
import Verif.Props.AuxSchedules
import Verif.Props.Crashes

/-! Property C120: commands that are killed while a plan with auxiliary pipes is carried out. Specification:
`Spec/AuxCrashes.lean`. -/

namespace PashAnn
open Spec

theorem auxNetwork_single (prog : FilePrograms) {ins made outs : List IOVar} {cmds : List CommandInvocationWithIOVars}
    (hw : Wires prog ins cmds made outs) (hd : (ins ++ made).Nodup) (parts : List Stream) :
    SingleWriter (cmds.flatMap (writersOf prog)) (ins.zip parts) := by
  obtain ⟨n1, n2, n3⟩ := List.nodup_append.1 hd
  have hv : (cmds.flatMap (writersOf prog)).map (·.var) = made := by rw [flatMap_vars, hw.writes]
  refine ⟨zip_inj n1 parts, vars_inj (by rw [hv]; exact n2), fun q hq u hu e => ?_⟩
  exact n3 q.1 (List.of_mem_zip hq).1 u.var (by rw [← hv]; exact List.mem_map.2 ⟨u, hu, rfl⟩) e.symm

/-- C120. At every moment, whatever has been killed, what has been written to a variable is a beginning of what its writer gives for
what its inputs hold. -/
theorem C120_always {p : Parallelizer} (hn : 0 < p.infoMapperAggregator) {kind : AggregatorKind} {s : String} {impl : Bool}
    (hagg : p.coreAggregatorSpec = .funcString kind s impl) {inv : CommandInvocationInitial} {ns : List String}
    (hparse : parse s = .ok inv) (hflags : inv.flagOptionList = ns.map FlagOption.flag) {c : CommandInvocationWithIOVars}
    {ins made outs : List IOVar} {cmds : List CommandInvocationWithIOVars} (h : AuxNetwork p c ins cmds made outs)
    (prog : FilePrograms) (parts : List Stream) {killed : List CommandInvocationWithIOVars} {broken : List IOVar}
    {t : PipeState String} (hr : AuxCrashRun prog cmds (ins.zip parts) killed broken t) :
    (∀ q ∈ ins.zip parts, t.written q.1 <+: q.2) ∧
    ∀ u ∈ cmds.flatMap (writersOf prog), t.written u.var <+: u.content (u.reads.map t.written) := by
  obtain ⟨h1, -, -⟩ := auxNetwork_wires prog hn hagg hparse hflags h
  have hb := auxRun_begun (auxNetwork_single prog h1 h.distinct parts) hr
  exact ⟨hb.given, fun u hu => hb.made u hu _ (possible_written t _)⟩

/-- C120. If nothing has been killed and no input has broken off, the run is one of C118. -/
theorem C120_undisturbed {prog : FilePrograms} {cmds : List CommandInvocationWithIOVars} {given : List (IOVar × Stream)}
    {t : PipeState String} (h : AuxCrashRun prog cmds given [] [] t) : ∃ n, WriterRun (cmds.flatMap (writersOf prog)) given n t :=
  auxRun_undisturbed h rfl rfl

/-- C120. All contents of which each is a beginning of what its writer gives for the contents of its inputs can be left, and it is
enough to kill the commands one of whose outputs is shorter than it would be, and to break off the inputs that are shorter. -/
theorem C120_killed {p : Parallelizer} (hn : 0 < p.infoMapperAggregator) {kind : AggregatorKind} {s : String} {impl : Bool}
    (hagg : p.coreAggregatorSpec = .funcString kind s impl) {inv : CommandInvocationInitial} {ns : List String}
    (hparse : parse s = .ok inv) (hflags : inv.flagOptionList = ns.map FlagOption.flag) {c : CommandInvocationWithIOVars}
    {ins made outs : List IOVar} {cmds : List CommandInvocationWithIOVars} (h : AuxNetwork p c ins cmds made outs)
    (prog : FilePrograms) (parts : List Stream) (hlen : parts.length = ins.length) (env : IOVar → Stream)
    (hi : ∀ q ∈ ins.zip parts, env q.1 <+: q.2)
    (hc : ∀ u ∈ cmds.flatMap (writersOf prog), env u.var <+: u.content (u.reads.map env)) :
    ∃ killed broken t, AuxCrashRun prog cmds (ins.zip parts) killed broken t ∧
      (∀ v ∈ ins ++ made, t.closed v = true ∧ t.written v = env v) ∧ killed.reverse.Sublist cmds ∧
      (∀ d ∈ killed, ∃ u ∈ writersOf prog d, env u.var ≠ u.content (u.reads.map env)) ∧
      ∀ v ∈ broken, ∃ q ∈ ins.zip parts, q.1 = v ∧ env v ≠ q.2 := by
  obtain ⟨h1, -, -⟩ := auxNetwork_wires prog hn hagg hparse hflags h
  have empty : AuxCrashRun prog cmds (ins.zip parts) [] [] (filled env []) := by
    have : filled env [] = ⟨fun _ => [], fun _ => false⟩ := state_ext (fun v => by simp [filled]) (fun v => by simp [filled])
    rw [this]
    exact .start
  obtain ⟨k, broken, r1, r2, r3⟩ := aux_arrive_all (prog := prog) (cmds := cmds) hi ins [] [] (fun v hv => by
    have : v ∈ (ins.zip parts).map Prod.fst := by rw [List.map_fst_zip (by omega)]; exact hv
    exact List.mem_map.1 this) (by simpa using (List.nodup_append.1 h.distinct).1) empty
  obtain ⟨k', killed, more, e, hr, hk', hsub, hkill⟩ := aux_crash_all cmds ins k [] (fun c hc => hc) hc h1.order
    (fun v => by rw [r2, List.append_nil]) r1
  rw [List.append_nil] at e
  subst e
  refine ⟨killed, broken, _, hr, fun v hv => ?_, hsub, hkill, fun v hv => ?_⟩
  · have hm : v ∈ k' := by
      rw [hk', flatMap_vars, h1.writes]
      exact List.perm_append_comm.mem_iff.1 hv
    exact ⟨decide_eq_true hm, if_pos hm⟩
  · rcases r3 v hv with h | h
    · cases h
    · exact h

/-- C120. What the variables can hold when all writers have stopped or been killed: exactly the contents of which each is a
beginning of what its writer gives for the contents of its inputs. -/
theorem C120_contents {p : Parallelizer} (hn : 0 < p.infoMapperAggregator) {kind : AggregatorKind} {s : String} {impl : Bool}
    (hagg : p.coreAggregatorSpec = .funcString kind s impl) {inv : CommandInvocationInitial} {ns : List String}
    (hparse : parse s = .ok inv) (hflags : inv.flagOptionList = ns.map FlagOption.flag) {c : CommandInvocationWithIOVars}
    {ins made outs : List IOVar} {cmds : List CommandInvocationWithIOVars} (h : AuxNetwork p c ins cmds made outs)
    (prog : FilePrograms) (parts : List Stream) (hlen : parts.length = ins.length) (env : IOVar → Stream) :
    (∃ killed broken t, AuxCrashRun prog cmds (ins.zip parts) killed broken t ∧
      ∀ v ∈ ins ++ made, t.closed v = true ∧ t.written v = env v) ↔
    (∀ q ∈ ins.zip parts, env q.1 <+: q.2) ∧
      ∀ u ∈ cmds.flatMap (writersOf prog), env u.var <+: u.content (u.reads.map env) := by
  constructor
  · rintro ⟨killed, broken, t, hr, hv⟩
    obtain ⟨h1, h2⟩ := C120_always hn hagg hparse hflags h prog parts hr
    obtain ⟨w1, -, -⟩ := auxNetwork_wires prog hn hagg hparse hflags h
    refine ⟨fun q hq => ?_, fun u hu => ?_⟩
    · rw [← (hv q.1 (List.mem_append_left _ (List.of_mem_zip hq).1)).2]
      exact h1 q hq
    · have hum : u.var ∈ made := by
        rw [← w1.writes, ← flatMap_vars prog]; exact List.mem_map.2 ⟨u, hu, rfl⟩
      rw [← (hv u.var (List.mem_append_right _ hum)).2]
      have : u.reads.map env = u.reads.map t.written := by
        refine List.map_congr_left fun v hvr => ((hv v ?_).2).symm
        obtain ⟨d, hd, hud⟩ := List.mem_flatMap.1 hu
        rw [writersOf_reads hud] at hvr
        exact w1.reads.mem_iff.1 (List.mem_append_left _ (List.mem_flatMap.2 ⟨d, hd, hvr⟩))
      rw [this]
      exact h2 u hu
  · rintro ⟨h1, h2⟩
    obtain ⟨killed, broken, t, hr, hv, -⟩ := C120_killed hn hagg hparse hflags h prog parts hlen env h1 h2
    exact ⟨killed, broken, t, hr, hv⟩

/-! ### Bigrams -/

def firstOf (rs : List Remainder) : Stream := (rs.head?.map (·.first)).getD []
def lastOf (rs : List Remainder) : Stream := (rs.getLast?.map (·.last)).getD []

theorem pasteLines_short (a b : Stream) : (pasteLines a b).length ≤ 1 := by
  unfold pasteLines
  split <;> simp

theorem glued_append {l r : List Remainder} (hl : l ≠ []) (hr : r ≠ []) :
    glued (l ++ r) = glued l ++ pasteLines (lastOf l) (firstOf r) ++ glued r := by
  induction l with
  | nil => exact absurd rfl hl
  | cons a l ih =>
      match l, r, hr with
      | [], b :: r, _ => rfl
      | a' :: l, b :: r, hr =>
          have := ih (by simp) 
          show a.out ++ pasteLines a.last a'.first ++ glued (a' :: l ++ b :: r) = _
          rw [this]
          show _ = (a.out ++ pasteLines a.last a'.first ++ glued (a' :: l)) ++ _ ++ _
          have e : lastOf (a :: a' :: l) = lastOf (a' :: l) := rfl
          rw [e]
          simp only [List.append_assoc]

theorem remainsAll_append {p₁ p₂ : List Stream} {r₁ r₂ : List Remainder} (h₁ : RemainsAll p₁ r₁) (h₂ : RemainsAll p₂ r₂) :
    RemainsAll (p₁ ++ p₂) (r₁ ++ r₂) := by
  induction h₁ with
  | nil => exact h₂
  | cons h _ ih => exact .cons h ih

theorem remains_shorter {part : Stream} {r r' : Remainder} (h : Remains part r) (h1 : r'.out <+: r.out) (h2 : r'.first <+: r.first)
    (h3 : r'.last <+: r.last) : Remains part r' := by
  obtain ⟨b, hb, g1, g2, g3⟩ := h
  exact ⟨b, hb, h1.trans g1, h2.trans g2, h3.trans g3⟩

theorem prefix_of_append {α : Type} {a b : List α} : ∀ {y : List α}, y <+: a ++ b → y <+: a ∨ ∃ z, y = a ++ z ∧ z <+: b := by
  induction a with
  | nil => exact fun {y} h => .inr ⟨y, rfl, h⟩
  | cons x a ih =>
      intro y h
      match y with
      | [] => exact .inl List.nil_prefix
      | m :: y =>
          rw [List.cons_append, List.cons_prefix_cons] at h
          obtain ⟨rfl, h⟩ := h
          rcases ih h with h | ⟨z, rfl, hz⟩
          · exact .inl (List.cons_prefix_cons.2 ⟨rfl, h⟩)
          · exact .inr ⟨z, rfl, hz⟩

theorem prefix_seam {y j g : Stream} (hj : j.length ≤ 1) (h : y <+: j ++ g) : y = [] ∨ ∃ z, y = j ++ z ∧ z <+: g := by
  match j, hj with
  | [], _ => exact .inr ⟨y, rfl, h⟩
  | [l], _ =>
      match y with
      | [] => exact .inl rfl
      | m :: y =>
          rw [List.singleton_append, List.cons_prefix_cons] at h
          exact .inr ⟨y, by rw [h.1]; rfl, h.2⟩

/-- What is left can be cut anywhere. -/
theorem remainsAll_cut {parts : List Stream} {rs : List Remainder} (h : RemainsAll parts rs) :
    ∀ (y f l : Stream), rs ≠ [] → y <+: glued rs → f <+: firstOf rs → l <+: lastOf rs →
      ∃ rs', RemainsAll parts rs' ∧ rs' ≠ [] ∧ glued rs' = y ∧ firstOf rs' = f ∧ lastOf rs' = l := by
  induction h with
  | nil => exact fun _ _ _ h => absurd rfl h
  | @cons part parts r rs h hl ih =>
      intro y f l _ hy hf hlast
      match rs, hl, ih with
      | [], hl, _ =>
          exact ⟨[⟨y, f, l⟩], .cons (remains_shorter h hy hf hlast) hl, by simp, rfl, rfl, rfl⟩
      | r' :: rs, hl, ih =>
          have hy' : y <+: r.out ++ (pasteLines r.last r'.first ++ glued (r' :: rs)) := by
            rw [← List.append_assoc]; exact hy
          have hlast' : l <+: lastOf (r' :: rs) := hlast
          have short : ∀ w, w <+: r.out → w = y →
              ∃ rs', RemainsAll (part :: parts) rs' ∧ rs' ≠ [] ∧ glued rs' = y ∧ firstOf rs' = f ∧ lastOf rs' = l := by
            intro w hw e
            obtain ⟨rs', i1, i2, i3, i4, i5⟩ := ih [] [] l (by simp) List.nil_prefix List.nil_prefix hlast'
            match rs', i2 with
            | q :: rs', _ =>
                refine ⟨⟨w, f, []⟩ :: q :: rs', .cons (remains_shorter h hw hf List.nil_prefix) i1, by simp, ?_, rfl, i5⟩
                show w ++ pasteLines [] q.first ++ glued (q :: rs') = y
                have : q.first = [] := i4
                rw [this, i3, e]
                simp [pasteLines]
          rcases prefix_of_append hy' with hshort | ⟨z, rfl, hz⟩
          · exact short y hshort rfl
          · rcases prefix_seam (pasteLines_short _ _) hz with rfl | ⟨g, rfl, hg⟩
            · exact short r.out (List.prefix_refl _) (by simp)
            · obtain ⟨rs', i1, i2, i3, i4, i5⟩ := ih g r'.first l (by simp) hg (List.prefix_refl _) hlast'
              match rs', i2 with
              | q :: rs', _ =>
                  refine ⟨⟨r.out, f, r.last⟩ :: q :: rs', .cons (remains_shorter h (List.prefix_refl _) hf (List.prefix_refl _)) i1,
                    by simp, ?_, rfl, i5⟩
                  show r.out ++ pasteLines r.last q.first ++ glued (q :: rs') = _
                  have : q.first = r'.first := i4
                  rw [this, i3, List.append_assoc]

/-- What a group of three variables holds. -/
def Holds (env : IOVar → Stream) (g : List IOVar) (r : Remainder) : Prop := g.map env = [r.out, r.first, r.last]

theorem beside_append {β γ : Type} {R : β → γ → Prop} {l₁ l₂ : List γ} : ∀ {k : List β}, Beside R k (l₁ ++ l₂) →
    ∃ k₁ k₂, k = k₁ ++ k₂ ∧ Beside R k₁ l₁ ∧ Beside R k₂ l₂ := by
  induction l₁ with
  | nil => exact fun {k} h => ⟨[], k, rfl, .nil, h⟩
  | cons a l₁ ih =>
      intro k h
      cases h with
      | cons h hl =>
          obtain ⟨k₁, k₂, rfl, h1, h2⟩ := ih hl
          exact ⟨_ :: k₁, k₂, rfl, .cons h h1, h2⟩

theorem auxTree_ne {p : Parallelizer} {groups : List (List IOVar)} {cmds : List CommandInvocationWithIOVars} {made outs : List IOVar}
    (h : AuxTree p groups cmds made outs) : groups ≠ [] := by
  induction h with
  | leaf => simp
  | node _ _ _ ihl _ => exact fun e => ihl (List.append_eq_nil_iff.1 e).1

theorem beside_ne {β γ : Type} {R : β → γ → Prop} {k : List β} {l : List γ} (h : Beside R k l) (hl : l ≠ []) : k ≠ [] := by
  cases h with
  | nil => exact absurd rfl hl
  | cons => simp

/-- The aggregators of a tree, in one step: what its three outputs hold, and how that comes from what is recombined. -/
theorem bigramTree_node {prog : FilePrograms} (hb : BigramPrograms prog) {l r : List (List IOVar)}
    {cmds cmds' : List CommandInvocationWithIOVars} {made made' aux₁ aux₂ auxo : List IOVar} {i₁ i₂ o : IOVar} {agg : Aggregator}
    (hl : AuxTree bigramPlan l cmds made (i₁ :: aux₁)) (hr : AuxTree bigramPlan r cmds' made' (i₂ :: aux₂))
    (h : bigramPlan.getActual2AryAggregatorWithAux i₁ aux₁ i₂ aux₂ o auxo = .ok agg)
    (hd : ((l ++ r).flatten ++ (made ++ made' ++ o :: auxo)).Nodup) (hg : ∀ g ∈ l ++ r, g.length = 3) {env : IOVar → Stream}
    {o₁ f₁ l₁ o₂ f₂ l₂ : Stream} (h₁ : (i₁ :: aux₁).map env = [o₁, f₁, l₁]) (h₂ : (i₂ :: aux₂).map env = [o₂, f₂, l₂]) :
    (l.flatten ++ made).Nodup ∧ (r.flatten ++ made').Nodup ∧ ∃ f t, auxo = [f, t] ∧ ∀ R : Stream → Stream → Prop,
      ((∀ u ∈ writersOf prog agg.cmd, R (env u.var) (u.content (u.reads.map env))) ↔
        R (env o) (o₁ ++ pasteLines l₁ f₂ ++ o₂) ∧ R (env f) f₁ ∧ R (env t) l₂) := by
  have hp : ((l ++ r).flatten ++ (made ++ made' ++ o :: auxo)).Perm
      ((l.flatten ++ made) ++ ((r.flatten ++ made') ++ o :: auxo)) := by
    rw [List.perm_iff_count]; intro a; simp only [List.flatten_append, List.count_append]; omega
  obtain ⟨hd1, hd', hdis1⟩ := List.nodup_append.1 (hp.nodup_iff.1 hd)
  obtain ⟨hd2, hdo, hdis2⟩ := List.nodup_append.1 hd'
  have hpar : parse "bigram_aux_reduce" = .ok ⟨"bigram_aux_reduce", [], []⟩ := by decide +kernel
  obtain ⟨l1, -, -⟩ := tree_wires prog (p := bigramPlan) (kind := .custom2Ary) (s := "bigram_aux_reduce") (impl := true) rfl
    (ns := []) hpar rfl hl hd1 (n := 2) fun g hh => hg g (List.mem_append_left _ hh)
  obtain ⟨r1, -, -⟩ := tree_wires prog (p := bigramPlan) (kind := .custom2Ary) (s := "bigram_aux_reduce") (impl := true) rfl
    (ns := []) hpar rfl hr hd2 (n := 2) fun g hh => hg g (List.mem_append_right _ hh)
  have hsub1 : ∀ v ∈ i₁ :: aux₁, v ∈ l.flatten ++ made := fun v hv => l1.reads.mem_iff.1 (List.mem_append_right _ hv)
  have hsub2 : ∀ v ∈ i₂ :: aux₂, v ∈ r.flatten ++ made' := fun v hv => r1.reads.mem_iff.1 (List.mem_append_right _ hv)
  have hdn : (i₁ :: aux₁ ++ i₂ :: aux₂ ++ o :: auxo).Nodup := by
    refine List.nodup_append.2 ⟨List.nodup_append.2 ⟨?_, ?_, ?_⟩, hdo, ?_⟩
    · exact (List.nodup_append.1 (l1.reads.nodup_iff.2 hd1)).2.1
    · exact (List.nodup_append.1 (r1.reads.nodup_iff.2 hd2)).2.1
    · exact fun a ha b hb => hdis1 a (hsub1 a ha) b (List.mem_append_left _ (hsub2 b hb))
    · intro a ha b hb
      rcases List.mem_append.1 ha with ha | ha
      · exact hdis1 a (hsub1 a ha) b (List.mem_append_right _ hb)
      · exact hdis2 a (hsub2 a ha) b hb
  obtain ⟨a1, a2, a3, a4, -, -, -, a8⟩ := auxAggregator_wired (p := bigramPlan) (kind := .custom2Ary) (s := "bigram_aux_reduce")
    (impl := true) rfl (ns := []) hpar rfl h hdn
  have hlen : auxo.length = 2 := by
    have := congrArg List.length h₁
    simp only [List.length_map, List.length_cons, List.length_nil] at this
    omega
  obtain ⟨f, t, rfl⟩ : ∃ f t, auxo = [f, t] := by
    match auxo, hlen with
    | [f, t], _ => exact ⟨f, t, rfl⟩
  refine ⟨hd1, hd2, f, t, rfl, fun R => ?_⟩
  have hin : (operandsWith agg.cmd .streamInput).map env = [o₁, f₁, l₁, o₂, f₂, l₂] := by rw [a1, List.map_append, h₁, h₂]; rfl
  unfold writersOf
  rw [a2]
  simp only [List.mapIdx_cons, List.mapIdx_nil, List.mem_cons, List.not_mem_nil, or_false, forall_eq_or_imp, forall_eq, hin, a8,
    hb.reduce]
  rfl

/-- What a tree of aggregators leaves, if any of them can be killed. -/
theorem bigramTree_left {prog : FilePrograms} (hb : BigramPrograms prog) {groups : List (List IOVar)}
    {cmds : List CommandInvocationWithIOVars} {made outs : List IOVar} (h : AuxTree bigramPlan groups cmds made outs)
    (hd : (groups.flatten ++ made).Nodup) {env : IOVar → Stream} {parts : List Stream}
    (hp : Beside (fun part g => ∃ r, Remains part r ∧ Holds env g r) parts groups)
    (hc : ∀ u ∈ cmds.flatMap (writersOf prog), env u.var <+: u.content (u.reads.map env)) :
    ∃ rs, RemainsAll parts rs ∧ rs ≠ [] ∧ outs.map env = [glued rs, firstOf rs, lastOf rs] := by
  induction h generalizing parts with
  | leaf g =>
      cases hp with
      | cons hr hl =>
          cases hl
          obtain ⟨r, hr, hg⟩ := hr
          exact ⟨[r], .cons hr .nil, by simp, hg⟩
  | @node l r cmds cmds' made made' aux₁ aux₂ auxo i₁ i₂ o agg hl hr h ihl ihr =>
      have hg : ∀ g ∈ l ++ r, g.length = 3 := by
        clear ihl ihr hc hd hl hr
        generalize l ++ r = gs at hp
        induction hp with
        | nil => simp
        | cons hr _ ih =>
            intro g hm
            rcases List.mem_cons.1 hm with rfl | hm
            · obtain ⟨r, -, hh⟩ := hr
              have := congrArg List.length hh
              simpa using this
            · exact ih g hm
      obtain ⟨p₁, p₂, rfl, hp₁, hp₂⟩ := beside_append hp
      have hp' : ((l ++ r).flatten ++ (made ++ made' ++ o :: auxo)).Perm
          ((l.flatten ++ made) ++ ((r.flatten ++ made') ++ o :: auxo)) := by
        rw [List.perm_iff_count]; intro a; simp only [List.flatten_append, List.count_append]; omega
      obtain ⟨hd1, hd', -⟩ := List.nodup_append.1 (hp'.nodup_iff.1 hd)
      rw [List.flatMap_append, List.flatMap_append, List.flatMap_singleton] at hc
      obtain ⟨rs₁, l1, l2, l3⟩ := ihl hd1 hp₁ fun u hh => hc u (List.mem_append_left _ (List.mem_append_left _ hh))
      obtain ⟨rs₂, r1, r2, r3⟩ := ihr (List.nodup_append.1 hd').1 hp₂ fun u hh =>
        hc u (List.mem_append_left _ (List.mem_append_right _ hh))
      obtain ⟨-, -, f, t, rfl, hR⟩ := bigramTree_node hb hl hr h hd hg l3 r3
      obtain ⟨c1, c2, c3⟩ := (hR (· <+: ·)).1 fun u hh => hc u (List.mem_append_right _ hh)
      rw [← glued_append l2 r2] at c1
      obtain ⟨rs, k1, k2, k3, k4, k5⟩ := remainsAll_cut (remainsAll_append l1 r1) (env o) (env f) (env t) (by simp [l2]) c1
        (by rwa [show firstOf (rs₁ ++ rs₂) = firstOf rs₁ by cases rs₁ with | nil => exact absurd rfl l2 | cons => rfl])
        (by rwa [show lastOf (rs₁ ++ rs₂) = lastOf rs₂ by unfold lastOf; rw [List.getLast?_append]; cases hl : rs₂.getLast? with
          | none => exact absurd (List.getLast?_eq_none_iff.1 hl) r2
          | some => rfl])
      exact ⟨rs, k1, k2, by rw [k3, k4, k5]; rfl⟩

/-- What a tree of aggregators of which none is killed gives. -/
theorem bigramTree_full {prog : FilePrograms} (hb : BigramPrograms prog) {groups : List (List IOVar)}
    {cmds : List CommandInvocationWithIOVars} {made outs : List IOVar} (h : AuxTree bigramPlan groups cmds made outs)
    (hd : (groups.flatten ++ made).Nodup) {env : IOVar → Stream} {rs : List Remainder}
    (hp : Beside (fun r g => Holds env g r) rs groups)
    (hc : ∀ u ∈ cmds.flatMap (writersOf prog), env u.var = u.content (u.reads.map env)) :
    outs.map env = [glued rs, firstOf rs, lastOf rs] := by
  induction h generalizing rs with
  | leaf g =>
      cases hp with
      | cons hr hl =>
          cases hl
          exact hr
  | @node l r cmds cmds' made made' aux₁ aux₂ auxo i₁ i₂ o agg hl hr h ihl ihr =>
      have hg : ∀ g ∈ l ++ r, g.length = 3 := by
        clear ihl ihr hc hd hl hr
        generalize l ++ r = gs at hp
        induction hp with
        | nil => simp
        | cons hr _ ih =>
            intro g hm
            rcases List.mem_cons.1 hm with rfl | hm
            · have := congrArg List.length hr
              simpa using this
            · exact ih g hm
      obtain ⟨rs₁, rs₂, rfl, hp₁, hp₂⟩ := beside_append hp
      have hp' : ((l ++ r).flatten ++ (made ++ made' ++ o :: auxo)).Perm
          ((l.flatten ++ made) ++ ((r.flatten ++ made') ++ o :: auxo)) := by
        rw [List.perm_iff_count]; intro a; simp only [List.flatten_append, List.count_append]; omega
      obtain ⟨hd1, hd', -⟩ := List.nodup_append.1 (hp'.nodup_iff.1 hd)
      rw [List.flatMap_append, List.flatMap_append, List.flatMap_singleton] at hc
      have l3 := ihl hd1 hp₁ fun u hh => hc u (List.mem_append_left _ (List.mem_append_left _ hh))
      have r3 := ihr (List.nodup_append.1 hd').1 hp₂ fun u hh =>
        hc u (List.mem_append_left _ (List.mem_append_right _ hh))
      have l2 := beside_ne hp₁ (auxTree_ne hl)
      have r2 := beside_ne hp₂ (auxTree_ne hr)
      obtain ⟨-, -, f, t, rfl, hR⟩ := bigramTree_node hb hl hr h hd hg l3 r3
      obtain ⟨c1, c2, c3⟩ := (hR (· = ·)).1 fun u hh => hc u (List.mem_append_right _ hh)
      rw [← glued_append l2 r2] at c1
      rw [show firstOf (rs₁ ++ rs₂) = firstOf rs₁ by cases rs₁ with | nil => exact absurd rfl l2 | cons => rfl,
        show lastOf (rs₁ ++ rs₂) = lastOf rs₂ by unfold lastOf; rw [List.getLast?_append]; cases hl : rs₂.getLast? with
          | none => exact absurd (List.getLast?_eq_none_iff.1 hl) r2
          | some => rfl]
      simp only [List.map_cons, List.map_nil, c1, c2, c3]

/-- What the mappers write, for any way of comparing it with what they would write. -/
theorem bigramWorkers_iff {prog : FilePrograms} (hb : BigramPrograms prog) {c : CommandInvocationWithIOVars} {ins : List IOVar}
    {cmds : List CommandInvocationWithIOVars} {groups : List (List IOVar)} (h : AuxWorkers bigramPlan c ins cmds groups)
    (hd : (ins ++ groups.flatten).Nodup) {env : IOVar → Stream} (R : Stream → Stream → Prop) :
    (∀ u ∈ cmds.flatMap (writersOf prog), R (env u.var) (u.content (u.reads.map env))) ↔
    Beside (fun i g => ∃ r : Remainder, Holds env g r ∧ R r.out (bigrams (env i)) ∧ R r.first ((env i).take 1) ∧
      R r.last (env i).getLast?.toList) ins groups := by
  induction h with
  | none => exact ⟨fun _ => .nil, fun _ => by simp⟩
  | @part i o aux ins m cmds groups h hl ih =>
      have hp : (i :: ins ++ ((o :: aux) :: groups).flatten).Perm ((i :: o :: aux) ++ (ins ++ groups.flatten)) := by
        rw [List.perm_iff_count]; intro a; simp only [List.flatten_cons, List.count_append, List.count_cons]; omega
      obtain ⟨hd1, hd2, -⟩ := List.nodup_append.1 (hp.nodup_iff.1 hd)
      obtain ⟨m1, m2, m3, -, -, -, m7⟩ := auxMapper_wired (p := bigramPlan) (by decide) h hd1
      obtain ⟨f, t, rfl⟩ : ∃ f t, aux = [f, t] := by
        have m3' : aux.length + 1 = 3 := m3
        match aux, m3' with
        | [f, t], _ => exact ⟨f, t, rfl⟩
      have hname : m.cmdName = "bigram_aux_map" := m7
      have hone : (∀ u ∈ writersOf prog m, R (env u.var) (u.content (u.reads.map env))) ↔
          R (env o) (bigrams (env i)) ∧ R (env f) ((env i).take 1) ∧ R (env t) (env i).getLast?.toList := by
        unfold writersOf
        rw [m1, m2]
        simp only [List.mapIdx_cons, List.mapIdx_nil, List.mem_cons, List.not_mem_nil, or_false, forall_eq_or_imp, forall_eq,
          List.map_cons, List.map_nil, hname, hb.map]
        rfl
      rw [List.flatMap_cons]
      constructor
      · intro hall
        refine .cons ⟨⟨env o, env f, env t⟩, rfl, hone.1 fun u hu => hall u (List.mem_append_left _ hu)⟩ ?_
        exact (ih hd2).1 fun u hu => hall u (List.mem_append_right _ hu)
      · intro hall u hu
        cases hall with
        | cons hr hrest =>
            rcases List.mem_append.1 hu with hu | hu
            · obtain ⟨r, hh, h1⟩ := hr
              have e : [env o, env f, env t] = [r.out, r.first, r.last] := hh
              simp only [List.cons.injEq, and_true] at e
              rw [← e.1, ← e.2.1, ← e.2.2] at h1
              exact hone.2 h1 u hu
            · exact (ih hd2).2 hrest u hu

/-- The inputs and the outputs of the mappers hold these. -/
inductive Assigned (env : IOVar → Stream) : List (Stream × Remainder) → List IOVar → List (List IOVar) → Prop
  | nil : Assigned env [] [] []
  | cons {q : Stream × Remainder} {qs : List (Stream × Remainder)} {i : IOVar} {ins g : List IOVar} {groups : List (List IOVar)}
      (hi : env i = q.1) (hg : Holds env g q.2) (h : Assigned env qs ins groups) : Assigned env (q :: qs) (i :: ins) (g :: groups)

theorem assigned_congr {env env' : IOVar → Stream} {qs : List (Stream × Remainder)} {ins : List IOVar} {groups : List (List IOVar)}
    (h : Assigned env qs ins groups) (he : ∀ v ∈ ins ++ groups.flatten, env' v = env v) : Assigned env' qs ins groups := by
  induction h with
  | nil => exact .nil
  | @cons q qs i ins g groups hi hg h ih =>
      refine .cons ((he i (by simp)).trans hi) ?_ (ih fun v hv => he v ?_)
      · unfold Holds at hg ⊢
        rw [← hg]
        exact List.map_congr_left fun v hv => he v (by simp [hv])
      · simp only [List.cons_append, List.mem_cons, List.mem_append, List.flatten_cons] at hv ⊢
        grind

theorem assigned_exists : ∀ (qs : List (Stream × Remainder)) (ins : List IOVar) (groups : List (List IOVar)),
    (ins ++ groups.flatten).Nodup → ins.length = qs.length → groups.length = qs.length → (∀ g ∈ groups, g.length = 3) →
    ∃ env, Assigned env qs ins groups
  | [], [], [], _, _, _, _ => ⟨fun _ => [], .nil⟩
  | q :: qs, i :: ins, g :: groups, hd, h1, h2, h3 => by
      have hp : (i :: ins ++ (g :: groups).flatten).Perm ((i :: g) ++ (ins ++ groups.flatten)) := by
        rw [List.perm_iff_count]; intro a; simp only [List.flatten_cons, List.count_append, List.count_cons]; omega
      obtain ⟨hd1, hd2, hdis⟩ := List.nodup_append.1 (hp.nodup_iff.1 hd)
      obtain ⟨env, he⟩ := assigned_exists qs ins groups hd2 (by simpa using h1) (by simpa using h2)
        fun g hg => h3 g (List.mem_cons_of_mem _ hg)
      match g, h3 g List.mem_cons_self, hd1, hdis with
      | [o, f, t], _, hd1, hdis =>
          simp only [List.nodup_cons, List.mem_cons, not_or, List.not_mem_nil, or_false] at hd1
          refine ⟨fun v => if v = i then q.1 else if v = o then q.2.out else if v = f then q.2.first else if v = t then q.2.last
            else env v, .cons (if_pos rfl) ?_ (assigned_congr he fun v hv => ?_)⟩
          · obtain ⟨⟨a1, a2, a3⟩, ⟨a4, a5⟩, a6, -⟩ := hd1
            simp [Holds, Ne.symm a1, Ne.symm a2, Ne.symm a3, Ne.symm a4, Ne.symm a5, Ne.symm a6]
          · have n : ∀ w ∈ [i, o, f, t], v ≠ w := fun w hw e => hdis w hw v hv e.symm
            simp only [List.mem_cons, List.not_mem_nil, or_false, forall_eq_or_imp, forall_eq] at n
            simp [n.1, n.2.1, n.2.2.1, n.2.2.2]
  | [], _ :: _, _, _, h, _, _ => by cases h
  | [], _, _ :: _, _, _, h, _ => by cases h
  | _ :: _, [], _, _, h, _, _ => by cases h
  | _ :: _, _, [], _, _, h, _ => by cases h

theorem assigned_holds {env : IOVar → Stream} {qs : List (Stream × Remainder)} {ins : List IOVar} {groups : List (List IOVar)}
    (h : Assigned env qs ins groups) : Beside (fun r g => Holds env g r) (qs.map (·.2)) groups := by
  induction h with
  | nil => exact .nil
  | cons _ hg _ ih => exact .cons hg ih

theorem assigned_workers {env : IOVar → Stream} {qs : List (Stream × Remainder)} {ins : List IOVar} {groups : List (List IOVar)}
    (h : Assigned env qs ins groups) {R : Stream → Stream → Prop}
    (hq : ∀ q ∈ qs, R q.2.out (bigrams q.1) ∧ R q.2.first (q.1.take 1) ∧ R q.2.last q.1.getLast?.toList) :
    Beside (fun i g => ∃ r : Remainder, Holds env g r ∧ R r.out (bigrams (env i)) ∧ R r.first ((env i).take 1) ∧
      R r.last (env i).getLast?.toList) ins groups := by
  induction h with
  | nil => exact .nil
  | @cons q qs i ins g groups hi hg _ ih =>
      refine .cons ⟨q.2, hg, ?_⟩ (ih fun q hq' => hq q (List.mem_cons_of_mem _ hq'))
      rw [hi]
      exact hq q List.mem_cons_self

theorem auxWorkers_lengths {p : Parallelizer} {c : CommandInvocationWithIOVars} {ins : List IOVar}
    {cmds : List CommandInvocationWithIOVars} {groups : List (List IOVar)} (h : AuxWorkers p c ins cmds groups) :
    groups.length = ins.length ∧ cmds.length = ins.length := by
  induction h with
  | none => exact ⟨rfl, rfl⟩
  | part _ _ ih => simp [ih.1, ih.2]

/-- Contents of the variables in which only mappers cut their outputs, as wanted. -/
theorem bigrams_env {prog : FilePrograms} (hb : BigramPrograms prog) {c : CommandInvocationWithIOVars} {ins outs : List IOVar}
    {cw ct : List CommandInvocationWithIOVars} {groups : List (List IOVar)} {mt : List IOVar}
    (hw : AuxWorkers bigramPlan c ins cw groups) (ht : AuxTree bigramPlan groups ct mt outs)
    (hd : (ins ++ (groups.flatten ++ mt)).Nodup) (qs : List (Stream × Remainder)) (hlen : qs.length = ins.length) :
    ∃ env, Assigned env qs ins groups ∧ (∀ u ∈ ct.flatMap (writersOf prog), env u.var = u.content (u.reads.map env)) ∧
      outs.map env = [glued (qs.map (·.2)), firstOf (qs.map (·.2)), lastOf (qs.map (·.2))] := by
  have hd1 : (ins ++ groups.flatten).Nodup := by
    rw [← List.append_assoc] at hd; exact (List.nodup_append.1 hd).1
  have hd2 : (groups.flatten ++ mt).Nodup := (List.nodup_append.1 hd).2.1
  have hpar : parse "bigram_aux_reduce" = .ok ⟨"bigram_aux_reduce", [], []⟩ := by decide +kernel
  obtain ⟨-, -, w3, -⟩ := workers_wires prog (p := bigramPlan) (by decide) hw hd1
  obtain ⟨t1, -, -⟩ := tree_wires prog (p := bigramPlan) (kind := .custom2Ary) (s := "bigram_aux_reduce") (impl := true) rfl
    (ns := []) hpar rfl ht hd2 (n := 2) w3
  obtain ⟨env0, h0⟩ := assigned_exists qs ins groups hd1 hlen.symm ((auxWorkers_lengths hw).1.trans hlen.symm) w3
  have hv2 := flatMap_vars prog ct
  rw [t1.writes] at hv2
  obtain ⟨env, he, hc⟩ := inOrder_ends (inOrder_mono t1.order (known' := groups.flatten ++ ins)
    (fun v hv => List.mem_append_left _ hv) (by
      rw [hv2]
      have q : (ins ++ (groups.flatten ++ mt)).Perm (mt ++ (groups.flatten ++ ins)) := by
        rw [List.perm_iff_count]; intro a; simp only [List.count_append]; omega
      exact q.nodup_iff.1 hd)) env0
  have ha := assigned_congr h0 (env' := env) fun v hv => he v (List.perm_append_comm.mem_iff.1 hv)
  exact ⟨env, ha, hc, bigramTree_full hb ht hd2 (assigned_holds ha) hc⟩

/-- What is left at any moment. -/
theorem bigrams_left {prog : FilePrograms} (hb : BigramPrograms prog) {c : CommandInvocationWithIOVars} {ins made outs : List IOVar}
    {cmds : List CommandInvocationWithIOVars} (h : AuxNetwork bigramPlan c ins cmds made outs) {parts : List Stream}
    (hlen : parts.length = ins.length) {killed : List CommandInvocationWithIOVars} {broken : List IOVar} {t : PipeState String}
    (hr : AuxCrashRun prog cmds (ins.zip parts) killed broken t) :
    ∃ rs, RemainsAll parts rs ∧ rs ≠ [] ∧ outs.map t.written = [glued rs, firstOf rs, lastOf rs] := by
  have hpar : parse "bigram_aux_reduce" = .ok ⟨"bigram_aux_reduce", [], []⟩ := by decide +kernel
  obtain ⟨g1, g2⟩ := C120_always (p := bigramPlan) (by decide) (kind := .custom2Ary) (s := "bigram_aux_reduce") (impl := true)
    rfl (ns := []) hpar rfl h prog parts hr
  obtain ⟨cw, groups, ct, mt, hw, ht, rfl, rfl⟩ := h.commands
  have hd := h.distinct
  have hd1 : (ins ++ groups.flatten).Nodup := by
    rw [← List.append_assoc] at hd; exact (List.nodup_append.1 hd).1
  have hd2 : (groups.flatten ++ mt).Nodup := (List.nodup_append.1 hd).2.1
  rw [List.flatMap_append] at g2
  have hwk := (bigramWorkers_iff hb hw hd1 (· <+: ·)).1 fun u hu => g2 u (List.mem_append_left _ hu)
  have hbes : Beside (fun part g => ∃ r, Remains part r ∧ Holds t.written g r) parts groups := by
    clear hr h ht g2 hd hd1 hd2 hw
    induction hwk generalizing parts with
    | nil =>
        rw [List.length_eq_zero_iff.1 hlen]
        exact .nil
    | @cons i g ins groups hx _ ih =>
        match parts, hlen with
        | part :: parts, hlen =>
            obtain ⟨r, hh, x1, x2, x3⟩ := hx
            exact .cons ⟨r, ⟨_, g1 (i, part) (by simp), x1, x2, x3⟩, hh⟩
              (ih (parts := parts) (by simpa using hlen) fun q hq => g1 q (by simp [hq]))
  exact bigramTree_left hb ht hd2 hbes fun u hu => g2 u (List.mem_append_right _ hu)

/-- C120 for `bigrams_aux`, exactly: what the output and the auxiliary outputs can hold when all writers have stopped or been killed.
For each part there is what is written for a beginning of it, each of the three outputs cut anywhere; between neighbours there is a
line from what is left of the last line of the one and the first line of the other. -/
theorem C120_bigrams_exact {inv : CommandInvocationInitial} (hname : inv.cmdName = "bigrams_aux") {p : Parallelizer}
    (hp : Offered inv p) {c : CommandInvocationWithIOVars} {ins made outs : List IOVar} {cmds : List CommandInvocationWithIOVars}
    (h : AuxNetwork p c ins cmds made outs) (prog : FilePrograms) (hb : BigramPrograms prog) (parts : List Stream)
    (hlen : parts.length = ins.length) (ys : List Stream) :
    (∃ killed broken t, AuxCrashRun prog cmds (ins.zip parts) killed broken t ∧ (∀ v ∈ ins ++ made, t.closed v = true) ∧
      outs.map t.written = ys) ↔
    ∃ r rs, RemainsAll parts (r :: rs) ∧ ys = [glued (r :: rs), r.first, ((r :: rs).getLast (by simp)).last] := by
  have hp' := (offered_bigrams hname p).1 hp
  subst hp'
  have hpar : parse "bigram_aux_reduce" = .ok ⟨"bigram_aux_reduce", [], []⟩ := by decide +kernel
  obtain ⟨cw, groups, ct, mt, hw, ht, rfl, rfl⟩ := h.commands
  have hd := h.distinct
  have hd1 : (ins ++ groups.flatten).Nodup := by
    rw [← List.append_assoc] at hd; exact (List.nodup_append.1 hd).1
  have hd2 : (groups.flatten ++ mt).Nodup := (List.nodup_append.1 hd).2.1
  have hform : ∀ rs : List Remainder, rs ≠ [] → RemainsAll parts rs → ys = [glued rs, firstOf rs, lastOf rs] →
      ∃ r rs, RemainsAll parts (r :: rs) ∧ ys = [glued (r :: rs), r.first, ((r :: rs).getLast (by simp)).last] := by
    intro rs hne hr e
    match rs, hne with
    | r :: rs, _ =>
        refine ⟨r, rs, hr, ?_⟩
        rw [e]
        unfold firstOf lastOf
        rw [List.getLast?_eq_some_getLast (by simp)]
        rfl
  constructor
  · rintro ⟨killed, broken, t, hr, -, rfl⟩
    obtain ⟨rs, k1, k2, k3⟩ := bigrams_left hb h hlen hr
    exact hform rs k2 k1 k3
  · rintro ⟨r, rs, hall, rfl⟩
    obtain ⟨qs, hq1, hq2⟩ : ∃ qs : List (Stream × Remainder), qs.map (·.2) = r :: rs ∧
        Beside (fun part q => q.1 <+: part ∧ q.2.out <+: bigrams q.1 ∧ q.2.first <+: q.1.take 1 ∧
          q.2.last <+: q.1.getLast?.toList) parts qs := by
      clear hlen hform h
      generalize r :: rs = l at hall
      induction hall with
      | nil => exact ⟨[], rfl, .nil⟩
      | @cons part parts r rs hr _ ih =>
          obtain ⟨qs, e, hb⟩ := ih
          obtain ⟨b, hr⟩ := hr
          exact ⟨(b, r) :: qs, by rw [← e]; rfl, .cons hr hb⟩
    obtain ⟨env, ha, hc, ho⟩ := bigrams_env hb hw ht hd qs ((beside_length hq2).trans hlen)
    have hqs : ∀ q ∈ qs, q.2.out <+: bigrams q.1 ∧ q.2.first <+: q.1.take 1 ∧ q.2.last <+: q.1.getLast?.toList := by
      clear ha ho hq1 hlen h hall hform
      induction hq2 with
      | nil => simp
      | cons hx _ ih =>
          intro q hq
          rcases List.mem_cons.1 hq with rfl | hq
          · exact hx.2
          · exact ih q hq
    have hins : ∀ q ∈ ins.zip parts, env q.1 <+: q.2 := by
      clear ho hq1 hqs h hall hw ht hd hd1 hd2 hform hc
      induction ha generalizing parts with
      | nil => simp
      | @cons q qs i ins g groups hi hg _ ih =>
          cases hq2 with
          | @cons part _ parts _ hx hrest =>
              intro z hz
              rw [List.zip_cons_cons] at hz
              rcases List.mem_cons.1 hz with rfl | hz
              · exact hi ▸ hx.1
              · exact ih parts (by simpa using hlen) hrest z hz
    obtain ⟨killed, broken, t, hr, hv, -⟩ := C120_killed (p := bigramPlan) (by decide) (kind := .custom2Ary)
      (s := "bigram_aux_reduce") (impl := true) rfl (ns := []) hpar rfl h prog parts hlen env hins (by
        intro u hu
        rw [List.flatMap_append] at hu
        rcases List.mem_append.1 hu with hu | hu
        · exact (bigramWorkers_iff hb hw hd1 (· <+: ·)).2 (assigned_workers ha hqs) u hu
        · rw [hc u hu]; exact List.prefix_refl _)
    refine ⟨killed, broken, t, hr, fun v hv' => (hv v hv').1, ?_⟩
    obtain ⟨w1, -, -⟩ := auxNetwork_wires prog (p := bigramPlan) (by decide) (kind := .custom2Ary)
      (s := "bigram_aux_reduce") (impl := true) rfl (ns := []) hpar rfl h
    have : outs.map t.written = outs.map env :=
      List.map_congr_left fun v hvo => (hv v (w1.reads.mem_iff.1 (List.mem_append_right _ hvo))).2
    rw [this, ho, hq1]
    unfold firstOf lastOf
    rw [List.getLast?_eq_some_getLast (by simp)]
    rfl

theorem bigrams_prefix {b x : Stream} (h : b <+: x) : bigrams b <+: bigrams x := by
  induction x generalizing b with
  | nil => rw [List.prefix_nil.1 h]; exact List.prefix_refl _
  | cons a x ih =>
      match b with
      | [] => exact List.nil_prefix
      | [l] => exact List.nil_prefix
      | l :: m :: b =>
          obtain ⟨rfl, h'⟩ := List.cons_prefix_cons.1 h
          have hh := ih h'
          match x, h', hh with
          | n :: x, h', hh =>
              obtain ⟨rfl, -⟩ := List.cons_prefix_cons.1 h'
              show (l ++ "\t" ++ m) :: bigrams (m :: b) <+: (l ++ "\t" ++ m) :: bigrams (m :: x)
              exact List.cons_prefix_cons.2 ⟨rfl, hh⟩

theorem bigrams_append_sublist (x y : Stream) : (bigrams x ++ bigrams y).Sublist (bigrams (x ++ y)) := by
  induction x with
  | nil => exact List.Sublist.refl _
  | cons a x ih =>
      match x with
      | [] =>
          match y with
          | [] => exact List.Sublist.refl _
          | b :: y => exact List.sublist_cons_self _ _
      | b :: x => exact ih.cons_cons _

theorem glued_seams {parts : List Stream} {rs : List Remainder} (h : RemainsAll parts rs) : rs ≠ [] →
    ∃ z : Stream, List.Sublist z (glued rs) ∧ List.Sublist z (bigrams parts.flatten) ∧ (glued rs).length + 1 ≤ List.length z + parts.length := by
  induction h with
  | nil => exact fun h => absurd rfl h
  | @cons part parts r rs h hl ih =>
      intro _
      obtain ⟨b, hb, h1, -, -⟩ := h
      have hout : r.out.Sublist (bigrams part) := (h1.trans (bigrams_prefix hb)).sublist
      match rs, hl, ih with
      | [], hl, _ =>
          cases hl
          refine ⟨r.out, List.Sublist.refl _, by simpa using hout, ?_⟩
          simp [glued]
      | r' :: rs, hl, ih =>
          obtain ⟨z, z1, z2, z3⟩ := ih (by simp)
          refine ⟨r.out ++ z, ?_, ?_, ?_⟩
          · show (r.out ++ z).Sublist (r.out ++ pasteLines r.last r'.first ++ glued (r' :: rs))
            rw [List.append_assoc]
            exact (List.Sublist.refl _).append (z1.trans (List.sublist_append_right _ _))
          · rw [List.flatten_cons]
            exact (hout.append z2).trans (bigrams_append_sublist _ _)
          · show (r.out ++ pasteLines r.last r'.first ++ glued (r' :: rs)).length + 1 ≤ _
            have := pasteLines_short r.last r'.first
            simp only [List.length_append, List.length_cons]
            omega

/-- C120 for `bigrams_aux`: at every moment, whatever has been killed, all lines of the output but at most one for each place where
the input was split are lines of the right output, in order. -/
theorem C120_seams {inv : CommandInvocationInitial} (hname : inv.cmdName = "bigrams_aux") {p : Parallelizer}
    (hp : Offered inv p) {c : CommandInvocationWithIOVars} {ins made outs : List IOVar} {cmds : List CommandInvocationWithIOVars}
    (h : AuxNetwork p c ins cmds made outs) (prog : FilePrograms) (hb : BigramPrograms prog) (x : Stream) (parts : List Stream)
    (hlen : parts.length = ins.length) (hx : Split p.splitter x parts) {killed : List CommandInvocationWithIOVars}
    {broken : List IOVar} {t : PipeState String} (hr : AuxCrashRun prog cmds (ins.zip parts) killed broken t) :
    ∃ o, outs.head? = some o ∧ ∃ z : Stream, List.Sublist z (t.written o) ∧ List.Sublist z (bigrams x) ∧
      (t.written o).length ≤ List.length z + (parts.length - 1) := by
  have hp' := (offered_bigrams hname p).1 hp
  subst hp'
  obtain ⟨rs, k1, k2, k3⟩ := bigrams_left hb h hlen hr
  obtain ⟨z, z1, z2, z3⟩ := glued_seams k1 k2
  rw [show parts.flatten = x from hx] at z2
  match outs, k3 with
  | o :: outs, k3 =>
      have e : t.written o = glued rs := (List.cons.inj k3).1
      exact ⟨o, rfl, z, e ▸ z1, z2, by rw [e]; omega⟩

theorem string_toList_append (s t : String) : (s ++ t).toList = s.toList ++ t.toList := by simp

theorem seam_wrong {x : Stream} (hl : ∀ l ∈ x, l ≠ "" ∧ l.toList.head? ≠ some '\t') (b : String) : "\t" ++ b ∉ bigrams x := by
  induction x with
  | nil => simp [bigrams]
  | cons a x ih =>
      match x with
      | [] => simp [bigrams]
      | a' :: x =>
          intro hm
          rcases List.mem_cons.1 hm with e | hm
          · obtain ⟨h1, h2⟩ := hl a List.mem_cons_self
            have e' := congrArg String.toList e
            rw [string_toList_append, string_toList_append, string_toList_append] at e'
            cases ha : a.toList with
            | nil => exact h1 (String.toList_eq_nil_iff.1 ha)
            | cons c cs =>
                rw [ha] at e' h2
                have : '\t' = c := (List.cons.inj e').1
                exact h2 (by rw [this]; rfl)
          · exact ih (fun l hh => hl l (List.mem_cons_of_mem _ hh)) hm

/-- Nothing is lost from these. -/
def wholeOf (b : Stream) : Stream × Remainder := (b, ⟨bigrams b, b.take 1, b.getLast?.toList⟩)

/-- C120 is false for `bigrams_aux`: whatever the input, as long as its lines are not empty and do not start with a tab, and wherever
it is split, if the mapper for the first part is killed at its start then all other commands can finish, and the output has a line
that is not in the right output. -/
theorem C120_false {inv : CommandInvocationInitial} (hname : inv.cmdName = "bigrams_aux") {p : Parallelizer}
    (hp : Offered inv p) {c : CommandInvocationWithIOVars} {ins made outs : List IOVar} {cmds : List CommandInvocationWithIOVars}
    (h : AuxNetwork p c ins cmds made outs) (prog : FilePrograms) (hb : BigramPrograms prog) (x part next : Stream)
    (rest : List Stream) (hlen : (part :: next :: rest).length = ins.length) (hx : Split p.splitter x (part :: next :: rest))
    (hnext : next ≠ []) (hl : ∀ l ∈ x, l ≠ "" ∧ l.toList.head? ≠ some '\t') :
    ∃ killed t o, AuxCrashRun prog cmds (ins.zip (part :: next :: rest)) killed [] t ∧ killed.length ≤ 1 ∧
      (∀ v ∈ ins ++ made, t.closed v = true) ∧ outs.head? = some o ∧ ∃ line ∈ t.written o, line ∉ bigrams x := by
  have hp' := (offered_bigrams hname p).1 hp
  subst hp'
  have hpar : parse "bigram_aux_reduce" = .ok ⟨"bigram_aux_reduce", [], []⟩ := by decide +kernel
  obtain ⟨cw, groups, ct, mt, hw, ht, rfl, rfl⟩ := h.commands
  have hd := h.distinct
  have hd1 : (ins ++ groups.flatten).Nodup := by
    rw [← List.append_assoc] at hd; exact (List.nodup_append.1 hd).1
  obtain ⟨env, ha, hc, ho⟩ := bigrams_env hb hw ht hd ((part, ⟨[], [], []⟩) :: (next :: rest).map wholeOf)
    (by rw [← hlen]; simp)
  obtain ⟨w1, -, -⟩ := auxNetwork_wires prog (p := bigramPlan) (by decide) (kind := .custom2Ary)
    (s := "bigram_aux_reduce") (impl := true) rfl (ns := []) hpar rfl h
  have hins : ∀ q ∈ ins.zip (part :: next :: rest), env q.1 = q.2 := by
    have key : ∀ {qs : List (Stream × Remainder)} {ins : List IOVar} {groups : List (List IOVar)}, Assigned env qs ins groups →
        ∀ q ∈ ins.zip (qs.map (·.1)), env q.1 = q.2 := by
      intro qs ins groups ha
      induction ha with
      | nil => simp
      | cons hi _ _ ih =>
          intro z hz
          rw [List.map_cons, List.zip_cons_cons] at hz
          rcases List.mem_cons.1 hz with rfl | hz
          · exact hi
          · exact ih z hz
    have := key ha
    simpa [wholeOf, Function.comp_def] using this
  cases hw with
  | none => exact absurd ht (fun ht => auxTree_ne ht rfl)
  | @part i o aux ins m cw groups hm hw =>
      cases ha with
      | cons hi hg ha =>
          have hd1' : (ins ++ groups.flatten).Nodup := by
            have hpm : (i :: ins ++ ((o :: aux) :: groups).flatten).Perm ((i :: o :: aux) ++ (ins ++ groups.flatten)) := by
              rw [List.perm_iff_count]; intro a; simp only [List.flatten_cons, List.count_append, List.count_cons]; omega
            exact (List.nodup_append.1 (hpm.nodup_iff.1 hd1)).2.1
          have hrest := (bigramWorkers_iff hb hw hd1' (· = ·)).2 (assigned_workers ha (by
            intro q hq
            obtain ⟨b, -, rfl⟩ := List.mem_map.1 hq
            exact ⟨rfl, rfl, rfl⟩))
          have hall : ∀ u ∈ (m :: cw ++ ct).flatMap (writersOf prog), env u.var <+: u.content (u.reads.map env) := by
            intro u hu
            rw [List.cons_append, List.flatMap_cons, List.flatMap_append] at hu
            rcases List.mem_append.1 hu with hu | hu
            · have hv : u.var ∈ o :: aux := by
                have hpm : (i :: ins ++ ((o :: aux) :: groups).flatten).Perm ((i :: o :: aux) ++ (ins ++ groups.flatten)) := by
                  rw [List.perm_iff_count]; intro a; simp only [List.flatten_cons, List.count_append, List.count_cons]; omega
                obtain ⟨-, m2, -⟩ := auxMapper_wired (p := bigramPlan) (by decide) hm
                  (List.nodup_append.1 (hpm.nodup_iff.1 hd1)).1
                rw [← m2, ← writersOf_vars prog]
                exact List.mem_map.2 ⟨u, hu, rfl⟩
              have hz : ∀ y ∈ (o :: aux).map env, y = [] := by
                rw [show (o :: aux).map env = [[], [], []] from hg]
                simp
              rw [hz _ (List.mem_map_of_mem hv)]
              exact List.nil_prefix
            · rcases List.mem_append.1 hu with hu | hu
              · rw [hrest u hu]; exact List.prefix_refl _
              · rw [hc u hu]; exact List.prefix_refl _
          obtain ⟨killed, broken, t, hr, hv, hsub, hk, hbr⟩ := C120_killed (p := bigramPlan) (by decide) (kind := .custom2Ary)
            (s := "bigram_aux_reduce") (impl := true) rfl (ns := []) hpar rfl h prog (part :: next :: rest) hlen env
            (fun q hq => by rw [hins q hq]; exact List.prefix_refl _) hall
          have hb0 : broken = [] := by
            match broken, hbr with
            | [], _ => rfl
            | v :: _, hbr =>
                obtain ⟨q, hq, rfl, hne⟩ := hbr v List.mem_cons_self
                exact absurd (hins q hq) hne
          subst hb0
          have hk1 : killed.length ≤ 1 := by
            have bad : ∀ d ∈ killed, d ∉ cw ++ ct := by
              intro d hdk hdm
              obtain ⟨u, hu, hne⟩ := hk d hdk
              rcases List.mem_append.1 hdm with hdm | hdm
              · exact hne (hrest u (List.mem_flatMap.2 ⟨d, hdm, hu⟩))
              · exact hne (hc u (List.mem_flatMap.2 ⟨d, hdm, hu⟩))
            rw [← List.length_reverse]
            have bad' : ∀ d ∈ killed.reverse, d ∉ cw ++ ct := fun d hdk => bad d (List.mem_reverse.1 hdk)
            generalize killed.reverse = l at hsub bad'
            rw [List.cons_append] at hsub
            cases hsub with
            | cons _ hs =>
                match l, hs, bad' with
                | [], _, _ => simp
                | d :: l, hs, bad' => exact absurd (hs.subset List.mem_cons_self) (bad' d List.mem_cons_self)
            | @cons_cons l' _ _ hs =>
                match l', hs, bad' with
                | [], _, _ => simp
                | d :: l', hs, bad' => exact absurd (hs.subset List.mem_cons_self) (bad' d (by simp))
          match outs, ho with
          | w :: outs, ho =>
              refine ⟨killed, t, w, hr, hk1, fun v hv' => (hv v hv').1, rfl, ?_⟩
              have hwm := w1.reads.mem_iff.1 (List.mem_append_right _ (List.mem_cons_self (a := w) (l := outs)))
              rw [(hv w hwm).2, (List.cons.inj ho).1]
              obtain ⟨b, n', rfl⟩ := List.exists_cons_of_ne_nil hnext
              refine ⟨"\t" ++ b, ?_, seam_wrong hl b⟩
              show _ ∈ [] ++ pasteLines [] [b] ++ _
              refine List.mem_append_left _ ?_
              show _ ∈ ["" ++ "\t" ++ b]
              simp

/-- The hypotheses of C120_false are met: `bigrams_aux` on four lines in three parts. -/
example : ∃ cmds made outs, AuxNetwork bigramPlan ⟨"bigrams_aux", [], [], some 0, some 10, []⟩ [1, 2, 3] cmds made outs ∧
    Offered ⟨"bigrams_aux", [], []⟩ bigramPlan ∧ BigramPrograms bigramProgs ∧
    Split bigramPlan.splitter ["a", "b", "c", "d"] [["a", "b"], ["c"], ["d"]] ∧
    ∀ l ∈ ["a", "b", "c", "d"], l ≠ "" ∧ l.toList.head? ≠ some '\t' := by
  obtain ⟨cmds, made, outs, h⟩ := C118_commands (p := bigramPlan) (by decide) (kind := .custom2Ary) (s := "bigram_aux_reduce")
    (impl := true) rfl (inv := ⟨"bigram_aux_reduce", [], []⟩) (ns := []) (by decide +kernel) rfl rfl
    (c := ⟨"bigrams_aux", [], [], some 0, some 10, []⟩) (ops := []) rfl List.nodup_nil (by simp) [1, 2, 3] (by decide) (by simp)
  exact ⟨cmds, made, outs, h, (offered_bigrams rfl _).2 rfl, bigramProgs_ok, by simp [bigramPlan, Split], by decide⟩

end PashAnn
