import Verif.Spec.Setup
import Verif.Props.Files

/-!
Property C106: what is installed (`C106_files`), when that works (`C106_installable`), and that installing changes the meaning of no command
line whose command has its data file in the data directory itself (`C106_same`). In subdirectories and with hidden files it does
(`C106_below`, `C106_hidden`, `C106_all_false`). Specification: `Spec/Setup.lean`.
-/

namespace PashAnn
open Spec Spec.Files Spec.Setup
open PashAnn.Files (Node Entries Machine)
open Spec.Encodings (Encoding)

namespace Setup

theorem dirAt_iff (src : Entries) (path : List String) (es : Entries) : dirAt src path = some es ↔ At src path (.dir es) := by
  induction path generalizing src with
  | nil =>
      constructor
      · intro h; cases h; exact .root
      · intro h; cases h; rfl
  | cons p ps ih =>
      rw [dirAt]
      constructor
      · intro h
        split at h
        · rename_i es' hl
          have := (ih es').1 h
          cases ps with
          | nil => cases this; exact .here hl
          | cons q qs => exact .inside hl this
        · cases h
      · intro h
        generalize hn : Node.dir es = node at h
        cases h with
        | here hl => subst hn; simp only [hl, dirAt]
        | inside hl h' => subst hn; simp only [hl]; exact (ih _).2 h'

theorem globbed_iff {ending : String} (he : ending.toList.head? = some '.') (p : String) :
    globbed ending p = true ↔ Ending ending p := by
  unfold globbed Ending
  rw [Bool.and_eq_true, List.isSuffixOf_iff_suffix]
  constructor
  · rintro ⟨h1, ⟨base, h2⟩⟩
    cases base with
    | nil =>
        rw [List.nil_append] at h2
        rw [← h2, he] at h1
        simp at h1
    | cons c base =>
        refine ⟨c, base, ?_, ?_⟩
        · apply String.ext
          rw [String.toList_append, String.toList_ofList, h2]
        · rw [← h2] at h1
          simpa using h1
  · rintro ⟨c, base, rfl, hc⟩
    rw [String.toList_append, String.toList_ofList]
    exact ⟨by simpa using hc, ⟨c :: base, rfl⟩⟩

theorem lookup_fst_mem {α β : Type} [BEq α] [LawfulBEq α] {l : List (α × β)} {k : α} {v : β} (h : l.lookup k = some v) :
    k ∈ l.map Prod.fst := by
  induction l with
  | nil => cases h
  | cons e l ih =>
      rw [List.lookup_cons] at h
      split at h
      · rename_i hk
        simp [eq_of_beq hk]
      · simp [ih h]

theorem mapM_mem {α β : Type} {f : α → Py (List β)} {l : List α} {r : List (List β)} (h : l.mapM f = .ok r) (b : β) :
    b ∈ r.flatten ↔ ∃ a ∈ l, ∃ bs, f a = .ok bs ∧ b ∈ bs := by
  induction l generalizing r with
  | nil => cases h; simp
  | cons a l ih =>
      rw [List.mapM_cons] at h
      cases hf : f a with
      | error e => rw [hf] at h; cases h
      | ok bs =>
          rw [hf] at h
          cases hl : l.mapM f with
          | error e => rw [hl] at h; cases h
          | ok r' =>
              rw [hl] at h
              cases h
              rw [List.flatten_cons, List.mem_append, ih hl]
              simp [hf]

theorem at_child {src es : Entries} {dir : List String} (hd : At src dir (.dir es)) (p : String) (node : Node) :
    At src (dir ++ [p]) node ↔ es.lookup p = some node := Files.at_snoc hd p node

private theorem copyModule_mem {dir : List String} {es : Entries} {p : String} {bs : List (List String × List UInt8)}
    (h : copyModule dir es p = .ok bs) (path : List String) (bytes : List UInt8) :
    (path, bytes) ∈ bs ↔ path = dir ++ [p] ∧ es.lookup p = some (.file bytes) := by
  unfold copyModule at h
  split at h
  · rename_i b hl
    cases h
    simp [hl, eq_comm]
  · cases h
  · rename_i hl
    cases h
    simp [hl]
  · cases h

private theorem copyData_mem {dir : List String} {es : Entries} {p : String} {bs : List (List String × List UInt8)}
    (h : copyData dir es p = .ok bs) (path : List String) (bytes : List UInt8) :
    (path, bytes) ∈ bs ↔ path = dir ++ [p] ∧ es.lookup p = some (.file bytes) := by
  unfold copyData at h
  split at h
  · rename_i b hl
    cases h
    simp [hl, eq_comm]
  · cases h
  · cases h
  · rename_i h1 h2 h3
    cases h
    constructor
    · intro h; cases h
    · rintro ⟨_, hl⟩
      exact absurd hl (h1 bytes)

theorem mapM_ok {α β : Type} (f : α → Py β) (l : List α) : (∃ r, l.mapM f = .ok r) ↔ ∀ a ∈ l, ∃ b, f a = .ok b := by
  induction l with
  | nil => simp [pure, Except.pure]
  | cons a l ih =>
      rw [List.mapM_cons]
      simp only [List.mem_cons, forall_eq_or_imp, ← ih]
      cases hf : f a with
      | error e => simp [bind, Except.bind]
      | ok b => cases hl : l.mapM f <;> simp [bind, Except.bind, pure, Except.pure]

private theorem names_mem {ending : String} (he : ending.toList.head? = some '.') (es : Entries) (p : String) :
    p ∈ names ending es ↔ p ∈ es.map Prod.fst ∧ Ending ending p := by
  rw [names, List.mem_filter, globbed_iff he]

end Setup
open Setup

/-- C106. The installed files are exactly those that are to be installed, with the same contents. -/
theorem C106_files (src : Entries) (files : List (List String × List UInt8)) (h : Setup.installed src = .ok files)
    (path : List String) (bytes : List UInt8) : (path, bytes) ∈ files ↔ ToInstall src path bytes := by
  unfold Setup.installed at h
  cases hr : readme src with
  | error e => rw [hr] at h; cases h
  | ok u =>
  rw [hr] at h
  dsimp only [bind, Except.bind] at h
  cases hm : Setup.packages.mapM (packageModules src) with
  | error e => rw [hm] at h; cases h
  | ok modules =>
  rw [hm] at h
  dsimp only at h
  cases hs : pyModules.mapM (copyModule ["pash_annotations"] ((dirAt src ["pash_annotations"]).getD [])) with
  | error e => rw [hs] at h; cases h
  | ok single =>
  rw [hs] at h
  dsimp only at h
  cases hd : (names ".json" ((dirAt src dataDir).getD [])).mapM (copyData dataDir ((dirAt src dataDir).getD [])) with
  | error e => rw [hd] at h; cases h
  | ok data =>
  rw [hd] at h
  cases h
  -- modules of a package
  have hpack : ∀ dir ∈ Setup.packages, ∃ es bs, At src dir (.dir es) ∧ packageModules src dir = .ok bs ∧
      ∀ path bytes, (path, bytes) ∈ bs ↔ ∃ p, path = dir ++ [p] ∧ Ending ".py" p ∧ es.lookup p = some (.file bytes) := by
    intro dir hdir
    have hok : ∃ bs, packageModules src dir = .ok bs := by
      clear hs hd
      generalize Setup.packages = l at hm hdir
      induction l generalizing modules with
      | nil => cases hdir
      | cons a l ih =>
          rw [List.mapM_cons] at hm
          cases hf : packageModules src a with
          | error e => rw [hf] at hm; cases hm
          | ok bs =>
              rw [hf] at hm
              cases hl : l.mapM (packageModules src) with
              | error e => rw [hl] at hm; cases hm
              | ok r' =>
                  rcases List.mem_cons.1 hdir with rfl | hdir
                  · exact ⟨bs, hf⟩
                  · exact ih r' hl hdir
    obtain ⟨bs, hbs⟩ := hok
    have hbs' := hbs
    unfold packageModules at hbs'
    split at hbs'
    · cases hbs'
    · rename_i es hes
      refine ⟨es, bs, (dirAt_iff _ _ _).1 hes, hbs, ?_⟩
      cases hl : (names ".py" es).mapM (copyModule dir es) with
      | error e => rw [hl] at hbs'; cases hbs'
      | ok r =>
          rw [hl] at hbs'
          cases hbs'
          intro path bytes
          rw [mapM_mem hl]
          constructor
          · rintro ⟨p, hp, bs, hb, hmem⟩
            obtain ⟨rfl, hlk⟩ := (copyModule_mem hb path bytes).1 hmem
            exact ⟨p, rfl, ((names_mem (by decide +kernel) es p).1 hp).2, hlk⟩
          · rintro ⟨p, rfl, he, hlk⟩
            refine ⟨p, (names_mem (by decide +kernel) es p).2 ⟨lookup_fst_mem hlk, he⟩, [(dir ++ [p], bytes)], ?_, by simp⟩
            unfold copyModule
            rw [hlk]
  rw [List.mem_append, List.mem_append, mapM_mem hm, mapM_mem hs, mapM_mem hd]
  constructor
  · rintro ((⟨dir, hdir, bs, hb, hmem⟩ | ⟨p, hp, bs, hb, hmem⟩) | ⟨p, hp, bs, hb, hmem⟩)
    · obtain ⟨es, bs', hat, hb', hiff⟩ := hpack dir hdir
      rw [hb] at hb'
      cases hb'
      obtain ⟨p, rfl, he, hlk⟩ := (hiff _ _).1 hmem
      exact ⟨(at_child hat p _).2 hlk, dir, p, rfl, .inl ⟨hdir, he⟩⟩
    · obtain ⟨rfl, hlk⟩ := (copyModule_mem hb path bytes).1 hmem
      obtain ⟨es, bs', hat, _, _⟩ := hpack ["pash_annotations"] (by decide +kernel)
      rw [(dirAt_iff _ _ _).2 hat] at hlk
      refine ⟨(at_child hat p _).2 hlk, _, p, rfl, .inl ⟨by decide +kernel, ?_⟩⟩
      rw [← globbed_iff (by decide +kernel)]
      exact (by decide +kernel : ∀ p ∈ pyModules, globbed ".py" p = true) p hp
    · obtain ⟨rfl, hlk⟩ := (copyData_mem hb path bytes).1 hmem
      cases hda : dirAt src dataDir with
      | none => rw [hda] at hlk; cases hlk
      | some es =>
          rw [hda] at hlk
          exact ⟨(at_child ((dirAt_iff _ _ _).1 hda) p _).2 hlk, dataDir, p, rfl,
            .inr ⟨rfl, ((names_mem (by decide +kernel) _ p).1 hp).2⟩⟩
  · rintro ⟨hat, dir, p, rfl, ⟨hdir, he⟩ | ⟨rfl, he⟩⟩
    · obtain ⟨es, bs, hat', hb, hiff⟩ := hpack dir hdir
      exact .inl (.inl ⟨dir, hdir, bs, hb, (hiff _ _).2 ⟨p, rfl, he, (at_child hat' p _).1 hat⟩⟩)
    · obtain ⟨es, hat'⟩ := Files.at_prefix hat (by simp)
      have hlk := (at_child hat' p _).1 hat
      have hda : dirAt src dataDir = some es := (dirAt_iff _ _ _).2 hat'
      rw [hda]
      refine .inr ⟨p, (names_mem (by decide +kernel) es p).2 ⟨lookup_fst_mem hlk, he⟩, [(dataDir ++ [p], bytes)], ?_, by simp [dataDir, dataFiles]⟩
      unfold copyData
      simp only [Option.getD_some, hlk]

/-- C106. Exactly the installable source trees can be installed. -/
theorem C106_installable (src : Entries) : (∃ files, Setup.installed src = .ok files) ↔ Installable src := by
  have hseq : (∃ files, Setup.installed src = .ok files) ↔ (∃ u, readme src = .ok u) ∧
      (∃ r, Setup.packages.mapM (packageModules src) = .ok r) ∧
      (∃ r, pyModules.mapM (copyModule ["pash_annotations"] ((dirAt src ["pash_annotations"]).getD [])) = .ok r) ∧
      ∃ r, (names ".json" ((dirAt src dataDir).getD [])).mapM (copyData dataDir ((dirAt src dataDir).getD [])) = .ok r := by
    unfold Setup.installed
    cases h1 : readme src <;> cases h2 : Setup.packages.mapM (packageModules src) <;>
      cases h3 : pyModules.mapM (copyModule ["pash_annotations"] ((dirAt src ["pash_annotations"]).getD [])) <;>
      cases h4 : (names ".json" ((dirAt src dataDir).getD [])).mapM (copyData dataDir ((dirAt src dataDir).getD [])) <;>
      simp [bind, Except.bind, h3, h4]
  have hpk : ∀ dir, (∃ bs, packageModules src dir = .ok bs) ↔ (∃ es, At src dir (.dir es)) ∧
      ∀ p node, Ending ".py" p → At src (dir ++ [p]) node → ∃ bytes, node = .file bytes := by
    intro dir
    unfold packageModules
    cases hda : dirAt src dir with
    | none =>
        constructor
        · rintro ⟨_, h⟩; cases h
        · rintro ⟨⟨es, h⟩, _⟩
          rw [(dirAt_iff _ _ _).2 h] at hda
          cases hda
    | some es =>
        have hat := (dirAt_iff _ _ _).1 hda
        have e : (∃ bs, (do .ok (← (names ".py" es).mapM (copyModule dir es)).flatten : Py (List (List String × List UInt8))) = .ok bs) ↔
            ∃ r, (names ".py" es).mapM (copyModule dir es) = .ok r := by
          cases (names ".py" es).mapM (copyModule dir es) <;> simp [bind, Except.bind]
        refine e.trans ((mapM_ok _ _).trans ?_)
        constructor
        · intro h
          refine ⟨⟨es, hat⟩, fun p node he ha => ?_⟩
          have hlk := (at_child hat p node).1 ha
          obtain ⟨b, hb⟩ := h p ((names_mem (by decide +kernel) es p).2 ⟨lookup_fst_mem hlk, he⟩)
          unfold copyModule at hb
          rw [hlk] at hb
          cases node with
          | file bytes => exact ⟨bytes, rfl⟩
          | _ => cases hb
        · rintro ⟨_, h⟩ p hp
          have he := ((names_mem (by decide +kernel) es p).1 hp).2
          unfold copyModule
          cases hlk : es.lookup p with
          | none => exact ⟨_, rfl⟩
          | some node =>
              obtain ⟨bytes, rfl⟩ := h p node he ((at_child hat p node).2 hlk)
              exact ⟨_, rfl⟩
  rw [hseq, mapM_ok, mapM_ok, mapM_ok]
  unfold Installable
  have hread : (∃ u, readme src = .ok u) ↔ ∃ bytes, At src ["README.md"] (.file bytes) := by
    have := fun node => at_child (At.root (es := src)) "README.md" node
    simp only [List.nil_append] at this
    simp only [this]
    unfold readme
    cases src.lookup "README.md" with
    | none => simp
    | some node => cases node <;> simp
  rw [hread]
  refine and_congr_right fun _ => ?_
  constructor
  · rintro ⟨h1, _, h3⟩
    refine ⟨fun dir hd => ((hpk dir).1 (h1 dir hd)).1, fun dir hd => ((hpk dir).1 (h1 dir hd)).2, fun p he => ?_⟩
    have key : ∀ node, At src (dataFiles ++ [p]) node → ∃ b, copyData dataDir [(p, node)] p = .ok b := by
      intro node ha
      obtain ⟨es, hat⟩ := Files.at_prefix ha (by simp)
      have hda : dirAt src dataDir = some es := (dirAt_iff _ _ _).2 hat
      have hlk := (at_child hat p node).1 ha
      rw [hda] at h3
      obtain ⟨b, hb⟩ := h3 p ((names_mem (by decide +kernel) es p).2 ⟨lookup_fst_mem hlk, he⟩)
      unfold copyData at hb ⊢
      simp only [Option.getD_some, hlk] at hb
      refine ⟨b, ?_⟩
      simpa using hb
    constructor
    · intro ha
      obtain ⟨b, hb⟩ := key _ ha
      simp [copyData] at hb
    · intro target ha
      obtain ⟨b, hb⟩ := key _ ha
      simp [copyData] at hb
  · rintro ⟨h1, h2, h3⟩
    refine ⟨fun dir hd => (hpk dir).2 ⟨h1 dir hd, h2 dir hd⟩, ?_, ?_⟩
    · intro p hp
      obtain ⟨es, hat⟩ := h1 ["pash_annotations"] (by decide +kernel)
      rw [(dirAt_iff _ _ _).2 hat]
      have he : Ending ".py" p := (globbed_iff (by decide +kernel) p).1
        ((by decide +kernel : ∀ p ∈ pyModules, globbed ".py" p = true) p hp)
      unfold copyModule
      simp only [Option.getD_some]
      cases hlk : es.lookup p with
      | none => exact ⟨_, rfl⟩
      | some node =>
          obtain ⟨bytes, rfl⟩ := h2 _ (by decide +kernel) p node he ((at_child hat p node).2 hlk)
          exact ⟨_, rfl⟩
    · intro p hp
      cases hda : dirAt src dataDir with
      | none => rw [hda] at hp; cases hp
      | some es =>
          rw [hda] at hp
          have hat := (dirAt_iff _ _ _).1 hda
          obtain ⟨hu, ht⟩ := h3 p ((names_mem (by decide +kernel) _ p).1 hp).2
          unfold copyData
          simp only [Option.getD_some]
          cases hlk : es.lookup p with
          | none => exact ⟨_, rfl⟩
          | some node =>
              have ha := (at_child hat p node).2 hlk
              cases node with
              | unreadable => exact absurd ha hu
              | link target => exact absurd ha (ht target)
              | _ => exact ⟨_, rfl⟩

/-- C106. If the data directory on one machine is the one of a source tree, and on another one the source tree was installed, both read the same for
every command with a plain name. -/
theorem C106_same (src : Entries) (files : List (List String × List UInt8)) (h : Setup.installed src = .ok files)
    (m m' : Machine) (hm : FromSource m src) (hm' : FromInstallation m' files) (hmax : m.nameMax = m'.nameMax)
    (name : String) (hn : Plain name) (hd : ∀ x ∈ [name, "_default_data_for_commands"], NoDirectory src x)
    (hs : ShortPaths m [name, "_default_data_for_commands"]) (hs' : ShortPaths m' [name, "_default_data_for_commands"]) :
    Files.getJson m name = Files.getJson m' name ∧
    (∀ args, Files.parse m (Shlex.join (name :: args)) = Files.parse m' (Shlex.join (name :: args))) ∧
    ∀ c : CommandInvocationInitial, c.cmdName = name → Files.initialInfo m c = Files.initialInfo m' c := by
  obtain ⟨pos, es, hdd, hsrc⟩ := hm
  obtain ⟨pos', es', hdd', hinst⟩ := hm'
  obtain ⟨n, up, _, hget⟩ := Files.getData_below hdd
  obtain ⟨n', up', _, hget'⟩ := Files.getData_below hdd'
  have hok := (C106_installable src).1 ⟨files, h⟩
  have key : ∀ x ∈ [name, "_default_data_for_commands"], Plain x →
      Files.getData m (Files.resourceOf x.toList) = Files.getData m' (Files.resourceOf x.toList) := by
    rintro x hx ⟨hslash, c, base, hcb, hc⟩
    obtain ⟨path, hp⟩ := Files.dataPath_exists m x
    obtain ⟨path', hp'⟩ := Files.dataPath_exists m' x
    have hq : Parts (x.toList ++ ".json".toList) [x ++ ".json"] := by
      rw [← String.toList_append]
      exact .last (by
        rw [String.toList_append, List.mem_append]
        rintro (h | h)
        · exact hslash h
        · revert h; decide +kernel)
    rw [hget x path _ hp (hs x hx path hp) hq, hget' x path' _ hp' (hs' x hx path' hp') hq, hmax]
    have hne : x ++ ".json" ∉ ["", ".", ".."] := by
      intro e
      have hh : (x ++ ".json").toList.head? = some c := by rw [String.toList_append, hcb]; rfl
      generalize x ++ ".json" = y at e hh
      simp only [List.mem_cons, List.not_mem_nil, or_false] at e
      rcases e with rfl | rfl | rfl
      · cases hh
      all_goals
        have : some '.' = some c := hh
        exact hc (Option.some.inj this).symm
    simp only [List.mem_cons, List.not_mem_nil, or_false, not_or] at hne
    have e1 : ¬ (x ++ ".json" = "" ∨ x ++ ".json" = ".") := fun h => h.elim hne.1 hne.2.1
    have e2 : [x ++ ".json"].filter (fun y => decide (y ≠ "")) = [x ++ ".json"] := by simp [List.filter, hne.1]
    rw [e2, Files.openFile_cons, if_neg e1, if_neg hne.2.2,
      Files.openFile_cons, if_neg e1, if_neg hne.2.2]
    split
    · rfl
    · have he : Ending ".json" (x ++ ".json") := ⟨c, base, by rw [← hcb, String.ofList_toList], hc⟩
      cases hlk : es.lookup (x ++ ".json") with
      | none =>
          cases hlk' : es'.lookup (x ++ ".json") with
          | none => rfl
          | some node =>
              obtain ⟨bytes, _, hmem⟩ := (hinst _ _).1 hlk'
              have := (at_child hsrc _ _).1 ((C106_files src files h _ _).1 hmem).1
              rw [hlk] at this
              cases this
      | some node =>
          have ha := (at_child hsrc _ _).2 hlk
          cases node with
          | file bytes =>
              have hmem : (dataFiles ++ [x ++ ".json"], bytes) ∈ files :=
                (C106_files src files h _ _).2 ⟨ha, _, _, rfl, .inr ⟨rfl, he⟩⟩
              rw [(hinst _ _).2 ⟨bytes, rfl, hmem⟩]
          | unreadable => exact absurd ha (hok.2.2.2 _ he).1
          | link target => exact absurd ha ((hok.2.2.2 _ he).2 target)
          | closed => exact absurd ha (hd x hx).1
          | dir es => exact absurd ha ((hd x hx).2 es)
  have hj : Files.getJson m name = Files.getJson m' name := by
    unfold Files.getJson
    rw [key name (by simp) hn, key "_default_data_for_commands" (by simp)
      ⟨by decide +kernel, '_', "default_data_for_commands".toList, by decide +kernel, by decide⟩]
  refine ⟨hj, fun args => by rw [Files.parse_join, Files.parse_join, hj], ?_⟩
  rintro c rfl
  unfold Files.initialInfo
  rw [hj]

/-- C106. Where a source tree was installed, a command whose path does not begin with the visible name of a data file is read like every
unknown command, whatever the source tree has for it. -/
theorem C106_default (src : Entries) (files : List (List String × List UInt8)) (h : Setup.installed src = .ok files)
    (m : Machine) (hm : FromInstallation m files) (name : String) (h0 : Char.ofNat 0 ∉ name.toList) (qs ps : List String) (p : String)
    (hq : Parts (name.toList ++ ".json".toList) qs) (hp : qs.filter (· ≠ "") = p :: ps) (hn : Name m.nameMax p)
    (he : ¬ Ending ".json" p) (hs : ShortPaths m [name]) :
    Files.getJson m name = Files.getJson m "_default_data_for_commands" ∧
    ∀ args j, Files.getJson m "_default_data_for_commands" = .ok j →
      Files.parse m (Shlex.join (name :: args)) = (DataFiles.readWords j args).map fun r => ⟨name, r.1, r.2⟩ := by
  obtain ⟨pos, es, hdd, hinst⟩ := hm
  obtain ⟨n, up, _, hget⟩ := Files.getData_below hdd
  have hno : es.lookup p = none := by
    cases hlk : es.lookup p with
    | none => rfl
    | some node =>
        obtain ⟨bytes, _, hmem⟩ := (hinst _ _).1 hlk
        obtain ⟨_, dir, p', hpath, hor⟩ := (C106_files src files h _ _).1 hmem
        obtain ⟨hdir, hpp⟩ := List.append_inj' hpath rfl
        injection hpp with hpp
        subst hpp
        rcases hor with ⟨hin, _⟩ | ⟨_, he'⟩
        · rw [← hdir] at hin
          exact absurd hin (by decide +kernel)
        · exact absurd he' he
  have hg : Files.getData m (Files.resourceOf name.toList) = .error .noEntry := by
    obtain ⟨path, hpath⟩ := Files.dataPath_exists m name
    obtain ⟨h1, h2⟩ := hn
    simp only [List.mem_cons, List.not_mem_nil, or_false, not_or] at h1
    rw [hget name path qs hpath (hs name (by simp) path hpath) hq, hp, Files.openFile_cons,
      if_neg (fun h => h.elim h1.1 h1.2.1), if_neg h1.2.2, if_neg (by omega), hno]
  have hj : Files.getJson m name = Files.getJson m "_default_data_for_commands" := by
    have h0' : name.toList.contains (Char.ofNat 0) = false := by simpa using h0
    have hd0 : "_default_data_for_commands".toList.contains (Char.ofNat 0) = false := by decide +kernel
    unfold Files.getJson
    rw [h0', hd0, if_neg (by simp), if_neg (by simp), hg]
    dsimp only
    cases hdef : Files.getData m (Files.resourceOf "_default_data_for_commands".toList) with
    | ok bytes => rfl
    | error e => cases e <;> rfl
  refine ⟨hj, fun args j hjd => ?_⟩
  rw [Files.parse_join, hj, hjd]
  dsimp only [bind, Except.bind]
  cases DataFiles.readWords j args <;> rfl

/-- A source tree with these data files, and with a module among the generators. -/
def sampleSource (es : Entries) : Entries :=
  [("README.md", .file []),
   ("pash_annotations", .dir [
     ("__init__.py", .file []), ("util.py", .file [10]), ("notes.txt", .file [10]),
     ("annotation_generation", .dir [
       ("annotation_generators", .dir [("InputOutputInfoGeneratorQ.py", .file [35, 10])]),
       ("datatypes", .dir [("parallelizability", .dir [])]), ("tests", .dir [("test_q.py", .file [])])]),
     ("config", .dir []), ("datatypes", .dir []),
     ("parser", .dir [("command_flag_option_info", .dir [("args-to-json.py", .file []), ("data", .dir es)])])])]

/-- Data files for `q`, `.q` and `d/q` with the same text, and the default file. -/
def sampleDataDir : Entries :=
  [("_default_data_for_commands.json", .file (Encoding.utf8.encode "{\"flag\": [], \"option\": []}".toList)),
   ("q.json", .file (Encoding.utf8.encode "{\"flag\": [[\"-q\"]], \"option\": []}".toList)),
   (".q.json", .file (Encoding.utf8.encode "{\"flag\": [[\"-q\"]], \"option\": []}".toList)),
   ("d", .dir [("q.json", .file (Encoding.utf8.encode "{\"flag\": [[\"-q\"]], \"option\": []}".toList))])]

/-- What is installed of `sampleSource sampleDataDir`. -/
def sampleFiles : List (List String × List UInt8) :=
  [(["pash_annotations", "__init__.py"], []), (["pash_annotations", "util.py"], [10]),
   (["pash_annotations", "annotation_generation", "annotation_generators", "InputOutputInfoGeneratorQ.py"], [35, 10]),
   (dataFiles ++ ["_default_data_for_commands.json"], Encoding.utf8.encode "{\"flag\": [], \"option\": []}".toList),
   (dataFiles ++ ["q.json"], Encoding.utf8.encode "{\"flag\": [[\"-q\"]], \"option\": []}".toList)]

theorem sample_installed : Setup.installed (sampleSource sampleDataDir) = .ok sampleFiles := by
  decide +kernel

theorem sample_source : FromSource (sampleMachine sampleDataDir) (sampleSource sampleDataDir) :=
  ⟨_, _, sampleMachine_data _, .inside rfl (.inside rfl (.inside rfl (.here rfl)))⟩

theorem sample_installation : FromInstallation (sampleMachine (sampleDataDir.take 2)) sampleFiles := by
  refine ⟨_, _, sampleMachine_data _, fun p node => ?_⟩
  have e : sampleDataDir.take 2 =
      [("_default_data_for_commands.json", .file (Encoding.utf8.encode "{\"flag\": [], \"option\": []}".toList)),
       ("q.json", .file (Encoding.utf8.encode "{\"flag\": [[\"-q\"]], \"option\": []}".toList))] := rfl
  rw [e, List.lookup_cons, List.lookup_cons, List.lookup_nil]
  generalize hx : Encoding.utf8.encode "{\"flag\": [], \"option\": []}".toList = x
  generalize hy : Encoding.utf8.encode "{\"flag\": [[\"-q\"]], \"option\": []}".toList = y
  have hf : ∀ bytes, (dataFiles ++ [p], bytes) ∈ sampleFiles ↔
      (p = "_default_data_for_commands.json" ∧ bytes = x) ∨ (p = "q.json" ∧ bytes = y) := by
    intro bytes
    subst hx hy
    have h1 : dataFiles ++ [p] ≠ ["pash_annotations", "__init__.py"] := by simp [dataFiles]
    have h2 : dataFiles ++ [p] ≠ ["pash_annotations", "util.py"] := by simp [dataFiles]
    have h3 : dataFiles ++ [p] ≠ ["pash_annotations", "annotation_generation", "annotation_generators", "InputOutputInfoGeneratorQ.py"] := by
      simp [dataFiles]
    simp only [sampleFiles, List.mem_cons, Prod.mk.injEq, h1, h2, h3, false_and, false_or, List.append_cancel_left_eq,
      List.cons.injEq, and_true, List.not_mem_nil, or_false]
  simp only [hf]
  by_cases h1 : p = "_default_data_for_commands.json"
  · subst h1
    have hne : ("_default_data_for_commands.json" : String) ≠ "q.json" := by decide +kernel
    simp [hne, eq_comm]
  · by_cases h2 : p = "q.json"
    · subst h2
      have hne : ("q.json" : String) ≠ "_default_data_for_commands.json" := by decide +kernel
      simp [hne, eq_comm]
    · simp [h1, h2, beq_eq_false_iff_ne.2 h1, beq_eq_false_iff_ne.2 h2]

theorem sample_short (es : Entries) (x : String) (qs : List String) (hq : Parts (x.toList ++ ".json".toList) qs)
    (h : (((["usr", "lib", "p"] : List String) ++ (["command_flag_option_info", "data"] ++ qs.filter (· ≠ ""))).map
      fun p => p.utf8ByteSize + 1).sum < 4096) : ∀ path, DataPath (sampleMachine es) x path → Short (sampleMachine es) path := by
  rintro path ⟨qs', hq', rfl⟩
  have e : qs' = qs := by rw [← (Files.parts_iff _ _).1 hq, ← (Files.parts_iff _ _).1 hq']
  subst e
  exact h

/-- C106 for all names of commands is false: with the hidden data file of `.q` in a source tree, `-q` is a flag; when the tree is
installed, it is an operand. The same is so for `d/q`. -/
theorem C106_all_false : ¬ ∀ (src : Entries) (files : List (List String × List UInt8)), Setup.installed src = .ok files →
    ∀ m m' : Machine, FromSource m src → FromInstallation m' files → m.nameMax = m'.nameMax → ∀ name : String,
    (∀ x ∈ [name, "_default_data_for_commands"], NoDirectory src x) →
    ShortPaths m [name, "_default_data_for_commands"] → ShortPaths m' [name, "_default_data_for_commands"] →
    ∀ args, Files.parse m (Shlex.join (name :: args)) = Files.parse m' (Shlex.join (name :: args)) := by
  intro h
  have hdir : ∀ x ∈ [".q", "_default_data_for_commands"], NoDirectory (sampleSource sampleDataDir) x := by
    intro x hx
    have hat : At (sampleSource sampleDataDir) dataFiles (.dir sampleDataDir) := .inside rfl (.inside rfl (.inside rfl (.here rfl)))
    unfold NoDirectory
    simp only [at_child hat]
    simp only [List.mem_cons, List.not_mem_nil, or_false] at hx
    rcases hx with rfl | rfl
    · have : sampleDataDir.lookup (".q" ++ ".json") = some (.file (Encoding.utf8.encode "{\"flag\": [[\"-q\"]], \"option\": []}".toList)) := rfl
      rw [this]
      simp
    · have : sampleDataDir.lookup ("_default_data_for_commands" ++ ".json") =
        some (.file (Encoding.utf8.encode "{\"flag\": [], \"option\": []}".toList)) := rfl
      rw [this]
      simp
  have hshort : ∀ es, ShortPaths (sampleMachine es) [".q", "_default_data_for_commands"] := by
    intro es x hx
    simp only [List.mem_cons, List.not_mem_nil, or_false] at hx
    rcases hx with rfl | rfl
    · exact sample_short es ".q" [".q.json"] (.last (s := ".q.json") (by decide +kernel)) (by decide +kernel)
    · exact sample_short es "_default_data_for_commands" ["_default_data_for_commands.json"]
        (.last (s := "_default_data_for_commands.json") (by decide +kernel)) (by decide +kernel)
  have := h _ _ sample_installed _ _ sample_source sample_installation rfl ".q" hdir (hshort _) (hshort _) ["-q"]
  have h1 : (match Files.parse (sampleMachine sampleDataDir) (Shlex.join [".q", "-q"]) with
    | .ok c => c.operandList | .error _ => ["?"]) = [] := by decide +kernel
  have h2 : (match Files.parse (sampleMachine (sampleDataDir.take 2)) (Shlex.join [".q", "-q"]) with
    | .ok c => c.operandList | .error _ => ["?"]) = ["-q"] := by decide +kernel
  rw [this, h2] at h1
  cases h1

/-- The hypotheses of `C106_same` for `q`: it is read the same, with the flag. -/
example : Files.getJson (sampleMachine sampleDataDir) "q" = Files.getJson (sampleMachine (sampleDataDir.take 2)) "q" ∧
    (match Files.parse (sampleMachine (sampleDataDir.take 2)) "q -q x" with
      | .ok c => (c.flagOptionList.length, c.operandList) | .error _ => (0, [])) = (1, ["x"]) := by
  refine ⟨(C106_same _ _ sample_installed _ _ sample_source sample_installation rfl "q"
    ⟨by decide +kernel, 'q', [], by decide +kernel, by decide⟩ ?_ ?_ ?_).1, by decide +kernel⟩
  · intro x hx
    have hat : At (sampleSource sampleDataDir) dataFiles (.dir sampleDataDir) := .inside rfl (.inside rfl (.inside rfl (.here rfl)))
    unfold NoDirectory
    simp only [at_child hat]
    simp only [List.mem_cons, List.not_mem_nil, or_false] at hx
    rcases hx with rfl | rfl
    · have : sampleDataDir.lookup ("q" ++ ".json") = some (.file (Encoding.utf8.encode "{\"flag\": [[\"-q\"]], \"option\": []}".toList)) := rfl
      rw [this]
      simp
    · have : sampleDataDir.lookup ("_default_data_for_commands" ++ ".json") =
        some (.file (Encoding.utf8.encode "{\"flag\": [], \"option\": []}".toList)) := rfl
      rw [this]
      simp
  all_goals
    intro x hx
    simp only [List.mem_cons, List.not_mem_nil, or_false] at hx
    rcases hx with rfl | rfl
    · exact sample_short _ "q" ["q.json"] (.last (s := "q.json") (by decide +kernel)) (by decide +kernel)
    · exact sample_short _ "_default_data_for_commands" ["_default_data_for_commands.json"]
        (.last (s := "_default_data_for_commands.json") (by decide +kernel)) (by decide +kernel)

/-- The hypotheses of `C106_default` for `/d/q`. -/
example : Files.getJson (sampleMachine (sampleDataDir.take 2)) "/d/q" =
    Files.getJson (sampleMachine (sampleDataDir.take 2)) "_default_data_for_commands" := by
  have hq : Parts ("/d/q".toList ++ ".json".toList) ["", "d", "q.json"] := (Files.parts_iff _ _).2 (by decide +kernel)
  refine (C106_default _ _ sample_installed _ sample_installation "/d/q" (by decide +kernel) _ ["q.json"] "d" hq (by decide +kernel) ?_ ?_ ?_).1
  · show Name 255 "d"
    decide +kernel
  · rw [← globbed_iff (by decide +kernel)]
    decide +kernel
  · intro x hx
    rw [List.mem_singleton.1 hx]
    exact sample_short _ _ _ hq (by decide +kernel)

/-- C106. What a contributor adds for a command, a data file and modules for its generators, is installed with it. -/
theorem C106_new_command (src : Entries) (files : List (List String × List UInt8)) (h : Setup.installed src = .ok files)
    (name repr : String) (data io par : List UInt8) (hn : Plain name)
    (hdata : At src (dataFiles ++ [name ++ ".json"]) (.file data))
    (hio : At src ["pash_annotations", "annotation_generation", "annotation_generators", "InputOutputInfoGenerator" ++ repr ++ ".py"] (.file io))
    (hpar : At src ["pash_annotations", "annotation_generation", "annotation_generators", "ParallelizabilityInfoGenerator" ++ repr ++ ".py"]
      (.file par)) :
    (["pash_annotations", "parser", "command_flag_option_info", "data", name ++ ".json"], data) ∈ files ∧
    (["pash_annotations", "annotation_generation", "annotation_generators", "InputOutputInfoGenerator" ++ repr ++ ".py"], io) ∈ files ∧
    (["pash_annotations", "annotation_generation", "annotation_generators", "ParallelizabilityInfoGenerator" ++ repr ++ ".py"], par) ∈ files := by
  obtain ⟨_, c, base, hcb, hc⟩ := hn
  refine ⟨(C106_files src files h _ _).2 ⟨hdata, dataFiles, _, rfl, .inr ⟨rfl, c, base, by rw [← hcb, String.ofList_toList], hc⟩⟩,
    (C106_files src files h _ _).2 ⟨hio, ["pash_annotations", "annotation_generation", "annotation_generators"], _, rfl,
      .inl ⟨by decide +kernel, 'I', "nputOutputInfoGenerator".toList ++ repr.toList, ?_, by decide⟩⟩,
    (C106_files src files h _ _).2 ⟨hpar, ["pash_annotations", "annotation_generation", "annotation_generators"], _, rfl,
      .inl ⟨by decide +kernel, 'P', "arallelizabilityInfoGenerator".toList ++ repr.toList, ?_, by decide⟩⟩⟩
  all_goals
    congr 1
    apply String.ext
    rw [String.toList_append]
    exact Eq.trans rfl String.toList_ofList.symm

example : At (sampleSource sampleDataDir) ["pash_annotations", "annotation_generation", "annotation_generators",
    "InputOutputInfoGenerator" ++ "Q" ++ ".py"] (.file [35, 10]) := .inside rfl (.inside rfl (.inside rfl (.here rfl)))

/-- C106. A source tree with the shipped data files, once installed: command lines with a plain name of at most 250 bytes are read and
generators are made as for the other properties, wherever it was installed and whatever else is on the machine. -/
theorem C106_shipped (src : Entries) (hsrc : At src dataFiles (.dir (filesOf shippedTexts)))
    (files : List (List String × List UInt8)) (h : Setup.installed src = .ok files)
    (m : Machine) (hm : FromInstallation m files) (hmax : 255 ≤ m.nameMax)
    (hs : (m.package.map fun p => p.utf8ByteSize + 1).sum + 300 ≤ m.pathMax)
    (name : String) (hn : Plain name) (hsize : name.utf8ByteSize ≤ 250) :
    (∀ ws, PashAnn.parse (Shlex.join (name :: ws)) ≠ .error .outsideModel →
      Files.parse m (Shlex.join (name :: ws)) =
        (PashAnn.parse (Shlex.join (name :: ws))).map fun c => ⟨c.cmdName, anyNames c.flagOptionList, c.operandList⟩) ∧
    ∀ c, c.cmdName = name → Readable name → Files.initialInfo m c = PashAnn.initialInfo c := by
  let m' : Machine := {
    root := [("command_flag_option_info", .dir [("data", .dir (filesOf shippedTexts))])], package := []
    nameMax := m.nameMax, pathMax := 4096, linkMax := 0 }
  have hdd : DataDirectory m' ["command_flag_option_info", "data"] (filesOf shippedTexts) := by
    have hnm : ∀ p ∈ (["command_flag_option_info", "data"] : List String), Name m.nameMax p := by
      intro p hp
      have := (by decide +kernel : ∀ p ∈ (["command_flag_option_info", "data"] : List String), Name 255 p) p hp
      exact ⟨this.1, Nat.le_trans this.2 hmax⟩
    exact ⟨⟨0, .down (hnm _ (by simp)) (.here rfl) (.down (hnm _ (by simp)) (.inside rfl (.here rfl)) .here)⟩,
      .inside rfl (.here rfl)⟩
  have hsmall : ∀ x ∈ [name, "_default_data_for_commands"], '/' ∉ x.toList ∧ x.utf8ByteSize ≤ 250 := by
    intro x hx
    simp only [List.mem_cons, List.not_mem_nil, or_false] at hx
    rcases hx with rfl | rfl
    · exact ⟨hn.1, hsize⟩
    · exact ⟨by decide +kernel, by decide +kernel⟩
  have hshort : ∀ m : Machine, (m.package.map fun p => p.utf8ByteSize + 1).sum + 300 ≤ m.pathMax →
      ShortPaths m [name, "_default_data_for_commands"] := by
    rintro m hs x hx path ⟨qs, hq, rfl⟩
    obtain ⟨hslash, hxs⟩ := hsmall x hx
    have hq' : Parts (x.toList ++ ".json".toList) [x ++ ".json"] := by
      rw [← String.toList_append]
      exact .last (by
        rw [String.toList_append, List.mem_append]
        rintro (h | h)
        · exact hslash h
        · revert h; decide +kernel)
    have e : qs = [x ++ ".json"] := by rw [← (Files.parts_iff _ _).1 hq, ← (Files.parts_iff _ _).1 hq']
    subst e
    unfold Short
    have h1 : (([x ++ ".json"].filter (· ≠ "")).map fun p => p.utf8ByteSize + 1).sum ≤ x.utf8ByteSize + 6 := by
      refine Nat.le_trans (Files.filter_sum_le _ _ _) ?_
      have h2 : (x ++ ".json").utf8ByteSize = x.utf8ByteSize + 5 := by
        rw [String.utf8ByteSize_append]; rfl
      simp [h2]
    have h3 : (["command_flag_option_info", "data"].map fun p : String => p.utf8ByteSize + 1).sum = 30 := by decide +kernel
    rw [List.map_append, List.map_append, List.sum_append, List.sum_append, h3]
    omega
  have hnodir : ∀ x ∈ [name, "_default_data_for_commands"], NoDirectory src x := by
    intro x _
    unfold NoDirectory
    simp only [at_child hsrc]
    have := Files.filesOf_any shippedTexts (x ++ ".json")
    cases hlk : (filesOf shippedTexts).lookup (x ++ ".json") with
    | none => simp
    | some node =>
        rw [hlk] at this
        obtain ⟨t, rfl⟩ := this.1
        simp
  obtain ⟨hj, hparse, hinfo⟩ := C106_same src files h m' m ⟨_, _, hdd, hsrc⟩ hm rfl name hn hnodir
    (hshort m' (by show 0 + 300 ≤ 4096; decide)) (hshort m hs)
  obtain ⟨s1, s2⟩ := C102_shipped m' _ hdd hmax (by show 0 + 300 ≤ 4096; decide)
  refine ⟨fun ws hne => by rw [← hparse, s1 _ hne], ?_⟩
  rintro c rfl hr
  rw [← hinfo c rfl, s2 c hr]

/-- Such a tree can be installed. -/
example : At (sampleSource (filesOf shippedTexts)) dataFiles (.dir (filesOf shippedTexts)) ∧
    ∃ files, Setup.installed (sampleSource (filesOf shippedTexts)) = .ok files := by
  have hat : At (sampleSource (filesOf shippedTexts)) dataFiles (.dir (filesOf shippedTexts)) :=
    .inside rfl (.inside rfl (.inside rfl (.here rfl)))
  refine ⟨hat, (C106_installable _).2 ⟨⟨[], .here rfl⟩, ?_, ?_, ?_⟩⟩
  · intro dir hdir
    simp only [← dirAt_iff]
    simp only [packageDirs, List.mem_cons, List.not_mem_nil, or_false] at hdir
    rcases hdir with rfl | rfl | rfl | rfl | rfl | rfl | rfl | rfl <;> exact ⟨_, rfl⟩
  · intro dir hdir p node he ha
    simp only [packageDirs, List.mem_cons, List.not_mem_nil, or_false] at hdir
    obtain ⟨es, hes⟩ := Files.at_prefix ha (by simp)
    have hlk := (at_child hes p node).1 ha
    have hes' := (dirAt_iff _ _ _).2 hes
    rw [← globbed_iff (by decide +kernel)] at he
    have key : ∀ l : Entries, l.lookup p = some node → (∀ e ∈ l, globbed ".py" e.1 = true → ∃ bytes, e.2 = .file bytes) →
        ∃ bytes, node = .file bytes := by
      intro l hl hall
      induction l with
      | nil => cases hl
      | cons e l ih =>
          rw [List.lookup_cons] at hl
          split at hl
          · rename_i hpe
            cases hl
            exact hall e (by simp) (by rw [← eq_of_beq hpe]; exact he)
          · exact ih hl fun e he => hall e (by simp [he])
    refine key es hlk ?_
    have hno : ∀ x : String, globbed ".py" x = false → globbed ".py" x = true → ∀ node : Node, ∃ bytes, node = .file bytes := by
      intro x h1 h2; rw [h1] at h2; cases h2
    rcases hdir with rfl | rfl | rfl | rfl | rfl | rfl | rfl | rfl <;>
    · injection hes' with hes'
      subst hes'
      intro e he
      simp only [List.mem_cons, List.not_mem_nil, or_false] at he <;> first
        | (rcases he with rfl | rfl | rfl | rfl | rfl | rfl | rfl <;>
            first | exact fun _ => ⟨_, rfl⟩ | exact fun h => hno _ (by decide +kernel) h _)
        | (rcases he with rfl | rfl | rfl <;>
            first | exact fun _ => ⟨_, rfl⟩ | exact fun h => hno _ (by decide +kernel) h _)
        | (subst he; first | exact fun _ => ⟨_, rfl⟩ | exact fun h => hno _ (by decide +kernel) h _)
  · intro p _
    have := Files.filesOf_any shippedTexts p
    simp only [at_child hat]
    cases hlk : (filesOf shippedTexts).lookup p with
    | none => simp
    | some node =>
        rw [hlk] at this
        obtain ⟨t, rfl⟩ := this.1
        simp

end PashAnn
