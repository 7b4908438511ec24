import Verif.Spec.Files
import Verif.Lemmas.DataFiles

/-! Opening files (`Model/Files.lean`) follows the paths of `Spec/Files.lean`. -/

namespace PashAnn.Files
open Spec Spec.Files

/-- The directories above a position. -/
inductive Stack (root : Entries) : List String → Entries → List Entries → Prop
  | root : Stack root [] root []
  | down {pos cur up p es} : Stack root pos cur up → cur.lookup p = some (.dir es) → Stack root (pos ++ [p]) es (cur :: up)

theorem at_append {root es : Entries} {pos ps : List String} {node : Node} (h : At root pos (.dir es)) (h' : At es ps node) :
    At root (pos ++ ps) node := by
  generalize hd : Node.dir es = d at h
  induction h with
  | root => cases hd; exact h'
  | here hl => subst hd; exact .inside hl h'
  | inside hl _ ih => exact .inside hl (ih hd)

theorem at_unique {root : Entries} {pos : List String} {a b : Node} (h : At root pos a) (h' : At root pos b) : a = b := by
  induction h with
  | root => cases h'; rfl
  | here hl =>
      cases h' with
      | here hl' => rw [hl] at hl'; exact Option.some.inj hl'
      | inside hl' h'' => cases h''; rw [hl] at hl'; exact Option.some.inj hl'
  | inside hl h ih =>
      cases h' with
      | here hl' => cases h; rw [hl] at hl'; exact Option.some.inj hl'
      | inside hl' h'' => rw [hl] at hl'; cases hl'; exact ih h''

theorem stack_at {root : Entries} {pos : List String} {cur : Entries} {up : List Entries} (h : Stack root pos cur up) :
    At root pos (.dir cur) := by
  induction h with
  | root => exact .root
  | down _ hl ih => exact at_append ih (.here hl)

theorem at_snoc {root cur : Entries} {pos : List String} (hs : At root pos (.dir cur)) (p : String) (node : Node) :
    At root (pos ++ [p]) node ↔ cur.lookup p = some node := by
  constructor
  · intro h
    generalize hq : pos ++ [p] = q at h
    induction h generalizing pos with
    | root => simp at hq
    | here hl =>
        cases pos with
        | nil =>
            cases hs
            simp only [List.nil_append, List.cons.injEq, and_true] at hq
            rw [hq]; exact hl
        | cons a pos => simp at hq
    | inside hl h ih =>
        cases pos with
        | nil =>
            cases hs
            simp only [List.nil_append, List.cons.injEq] at hq
            obtain ⟨rfl, rfl⟩ := hq
            cases h
            exact hl
        | cons a pos =>
            simp only [List.cons_append, List.cons.injEq] at hq
            obtain ⟨rfl, hq⟩ := hq
            refine ih ?_ hq
            cases hs with
            | here hl' => rw [hl] at hl'; cases hl'; exact .root
            | inside hl' h' => rw [hl] at hl'; cases hl'; exact h'
  · intro h; exact at_append hs (.here h)

theorem stack_up {root : Entries} {pos : List String} {cur : Entries} {up : List Entries} (h : Stack root pos cur up) :
    Stack root pos.dropLast (up.headD cur) up.tail := by
  cases h with
  | root => exact .root
  | down h _ => simpa using h

theorem stack_unique {root : Entries} {pos : List String} {cur cur' : Entries} {up up' : List Entries}
    (h : Stack root pos cur up) (h' : Stack root pos cur' up') : cur = cur' ∧ up = up' := by
  induction h generalizing cur' up' with
  | root =>
      generalize hq : ([] : List String) = q at h'
      cases h' with
      | root => exact ⟨rfl, rfl⟩
      | down => simp at hq
  | @down pos cur up p es h hl ih =>
      generalize hq : pos ++ [p] = q at h'
      cases h' with
      | root => simp at hq
      | @down pos' c u p' es' h'' hl' =>
          obtain ⟨rfl, hp⟩ := List.append_inj' hq rfl
          cases hp
          obtain ⟨rfl, rfl⟩ := ih h''
          rw [hl] at hl'
          cases hl'
          exact ⟨rfl, rfl⟩

theorem parts_iff (l : List Char) (qs : List String) : Parts l qs ↔ (splitSlash l).map String.ofList = qs := by
  have hof : ∀ s : String, String.ofList s.toList = s := fun s => String.ofList_toList
  constructor
  · intro h
    induction h with
    | last hs => rw [splitSlash_no_slash hs]; simp [hof]
    | more hs _ ih => rw [splitSlash_part hs, List.map_cons, ih, hof]
  · rintro rfl
    induction hl : l.length using Nat.strongRecOn generalizing l with
    | ind k ih =>
        by_cases hm : '/' ∈ l
        · obtain ⟨w, l', rfl, hw⟩ := List.eq_append_cons_of_mem hm
          have := Parts.more (s := String.ofList w) (by simpa using hw) (ih l'.length (by simp at hl; omega) l' rfl)
          rw [splitSlash_part hw]
          simpa using this
        · have := Parts.last (s := String.ofList l) (by simpa using hm)
          rw [splitSlash_no_slash hm]
          simpa using this

/-- Going on after a symbolic link. -/
def jumpOf (root : Entries) (nameMax : Nat) : Nat → Bool → Entries → List Entries → List String → Except FileErr (List UInt8)
  | 0 => fun _ _ _ _ => .error .tooManyLinks
  | n + 1 => fun absolute cur up ps => if absolute then openFile root nameMax n root [] ps else openFile root nameMax n cur up ps

theorem openFile_eq (root : Entries) (nameMax n : Nat) : openFile root nameMax n = openWith nameMax (jumpOf root nameMax n) := by
  cases n <;> rfl

theorem openFile_nil (root : Entries) (nameMax n : Nat) (cur : Entries) (up : List Entries) :
    openFile root nameMax n cur up [] = .error .isDirectory := by
  rw [openFile_eq]; rfl

theorem openFile_cons (root : Entries) (nameMax n : Nat) (cur : Entries) (up : List Entries) (p : String) (ps : List String) :
    openFile root nameMax n cur up (p :: ps) =
      if p = "" ∨ p = "." then openFile root nameMax n cur up ps
      else if p = ".." then openFile root nameMax n (up.headD cur) up.tail ps
      else if nameMax < p.utf8ByteSize then .error .nameTooLong
      else match cur.lookup p with
        | none => .error .noEntry
        | some .unreadable => if ps = [] then .error .denied else .error .notDirectory
        | some .closed => .error .denied
        | some (.file text) => if ps = [] then .ok text else .error .notDirectory
        | some (.dir entries) => openFile root nameMax n entries (cur :: up) ps
        | some (.link target) => jumpOf root nameMax n (target.head? = some '/') cur up ((splitSlash target).map String.ofList ++ ps) := by
  rw [openFile_eq, openWith]
  rfl

theorem leads_open {root : Entries} {nameMax n n' : Nat} {pos pos' path path' : List String}
    (h : Leads root nameMax n pos path n' pos' path') {cur : Entries} {up : List Entries} (hs : Stack root pos cur up) :
    ∃ cur' up', Stack root pos' cur' up' ∧ openFile root nameMax n cur up path = openFile root nameMax n' cur' up' path' := by
  have hnm : ∀ {p : String}, Name nameMax p → ¬ (p = "" ∨ p = ".") ∧ p ≠ ".." ∧ ¬ nameMax < p.utf8ByteSize := by
    intro p hp
    have h1 := hp.1
    have h2 := hp.2
    simp only [List.mem_cons, List.not_mem_nil, or_false, not_or] at h1
    exact ⟨by simp [h1], h1.2.2, by omega⟩
  induction h generalizing cur up with
  | here => exact ⟨cur, up, hs, rfl⟩
  | stay hp _ ih =>
      obtain ⟨c, u, h1, h2⟩ := ih hs
      refine ⟨c, u, h1, ?_⟩
      rw [openFile_cons, if_pos (by simpa using hp), h2]
  | up _ ih =>
      obtain ⟨c, u, h1, h2⟩ := ih (stack_up hs)
      refine ⟨c, u, h1, ?_⟩
      rw [openFile_cons, if_neg (by decide), if_pos rfl, h2]
  | down hp ha _ ih =>
      have hl := (at_snoc (stack_at hs) _ _).1 ha
      obtain ⟨c, u, h1, h2⟩ := ih (.down hs hl)
      refine ⟨c, u, h1, ?_⟩
      obtain ⟨e1, e2, e3⟩ := hnm hp
      rw [openFile_cons, if_neg e1, if_neg e2, if_neg e3, hl, ← h2]
  | relative hp ha ht hq _ ih =>
      have hl := (at_snoc (stack_at hs) _ _).1 ha
      obtain ⟨c, u, h1, h2⟩ := ih hs
      refine ⟨c, u, h1, ?_⟩
      obtain ⟨e1, e2, e3⟩ := hnm hp
      rw [openFile_cons, if_neg e1, if_neg e2, if_neg e3, hl, ← h2, ← (parts_iff _ _).1 hq]
      simp [jumpOf, ht]
  | absolute hp ha ht hq _ ih =>
      have hl := (at_snoc (stack_at hs) _ _).1 ha
      obtain ⟨c, u, h1, h2⟩ := ih .root
      refine ⟨c, u, h1, ?_⟩
      obtain ⟨e1, e2, e3⟩ := hnm hp
      rw [openFile_cons, if_neg e1, if_neg e2, if_neg e3, hl, ← h2, ← (parts_iff _ _).1 hq]
      simp [jumpOf, ht]

theorem ends_open {root : Entries} {nameMax n : Nat} {pos path : List String} {r : Except FileErr (List UInt8)}
    (h : Ends root nameMax n pos path r) {cur : Entries} {up : List Entries} (hs : Stack root pos cur up) :
    openFile root nameMax n cur up path = r := by
  have hnm : ∀ {p : String}, p ∉ ["", ".", ".."] → ¬ (p = "" ∨ p = ".") ∧ p ≠ ".." := by
    intro p hp
    simp only [List.mem_cons, List.not_mem_nil, or_false, not_or] at hp
    exact ⟨by simp [hp], hp.2.2⟩
  cases h with
  | directory => exact openFile_nil ..
  | long hl hp =>
      obtain ⟨e1, e2⟩ := hnm hp
      rw [openFile_cons, if_neg e1, if_neg e2, if_pos hl]
  | @missing _ _ p ps hp ha =>
      obtain ⟨e1, e2⟩ := hnm hp.1
      have hl : cur.lookup p = none := by
        cases hl : cur.lookup p with
        | none => rfl
        | some node => exact absurd ((at_snoc (stack_at hs) _ _).2 hl) (ha node)
      rw [openFile_cons, if_neg e1, if_neg e2, if_neg (by have := hp.2; omega), hl]
  | file hp ha =>
      obtain ⟨e1, e2⟩ := hnm hp.1
      rw [openFile_cons, if_neg e1, if_neg e2, if_neg (by have := hp.2; omega), (at_snoc (stack_at hs) _ _).1 ha]
      rfl
  | through hp ha hne =>
      obtain ⟨e1, e2⟩ := hnm hp.1
      rw [openFile_cons, if_neg e1, if_neg e2, if_neg (by have := hp.2; omega), (at_snoc (stack_at hs) _ _).1 ha]
      simp [hne]
  | unreadable hp ha =>
      obtain ⟨e1, e2⟩ := hnm hp.1
      rw [openFile_cons, if_neg e1, if_neg e2, if_neg (by have := hp.2; omega), (at_snoc (stack_at hs) _ _).1 ha]
      rfl
  | throughUnreadable hp ha hne =>
      obtain ⟨e1, e2⟩ := hnm hp.1
      rw [openFile_cons, if_neg e1, if_neg e2, if_neg (by have := hp.2; omega), (at_snoc (stack_at hs) _ _).1 ha]
      simp [hne]
  | closed hp ha =>
      obtain ⟨e1, e2⟩ := hnm hp.1
      rw [openFile_cons, if_neg e1, if_neg e2, if_neg (by have := hp.2; omega), (at_snoc (stack_at hs) _ _).1 ha]
  | links hp ha =>
      obtain ⟨e1, e2⟩ := hnm hp.1
      rw [openFile_cons, if_neg e1, if_neg e2, if_neg (by have := hp.2; omega), (at_snoc (stack_at hs) _ _).1 ha]
      rfl

/-- Every path ends somehow. -/
theorem leads_ends (root : Entries) (nameMax n : Nat) (path : List String) {pos : List String} {cur : Entries} {up : List Entries}
    (hs : Stack root pos cur up) :
    ∃ r n' pos' path', Leads root nameMax n pos path n' pos' path' ∧ Ends root nameMax n' pos' path' r := by
  induction n using Nat.strongRecOn generalizing path pos cur up with
  | ind n ihn =>
  induction path generalizing pos cur up with
  | nil => exact ⟨_, _, _, _, .here, .directory⟩
  | cons p ps ih =>
      by_cases h1 : p ∈ ["", "."]
      · obtain ⟨r, a, b, c, h, he⟩ := ih hs
        exact ⟨r, a, b, c, .stay h1 h, he⟩
      by_cases h2 : p = ".."
      · subst h2
        obtain ⟨r, a, b, c, h, he⟩ := ih (stack_up hs)
        exact ⟨r, a, b, c, .up h, he⟩
      have hp : p ∉ ["", ".", ".."] := by
        simp only [List.mem_cons, List.not_mem_nil, or_false, not_or] at h1 ⊢
        exact ⟨h1.1, h1.2, h2⟩
      by_cases h3 : nameMax < p.utf8ByteSize
      · exact ⟨_, _, _, _, .here, .long h3 hp⟩
      have hn : Name nameMax p := ⟨hp, by omega⟩
      cases hl : cur.lookup p with
      | none =>
          refine ⟨_, _, _, _, .here, .missing hn (fun node ha => ?_)⟩
          rw [(at_snoc (stack_at hs) _ _).1 ha] at hl
          cases hl
      | some node =>
          have ha := (at_snoc (stack_at hs) _ _).2 hl
          cases node with
          | unreadable =>
              cases ps with
              | nil => exact ⟨_, _, _, _, .here, .unreadable hn ha⟩
              | cons q qs => exact ⟨_, _, _, _, .here, .throughUnreadable hn ha (by simp)⟩
          | closed => exact ⟨_, _, _, _, .here, .closed hn ha⟩
          | file text =>
              cases ps with
              | nil => exact ⟨_, _, _, _, .here, .file hn ha⟩
              | cons q qs => exact ⟨_, _, _, _, .here, .through hn ha (by simp)⟩
          | dir es =>
              obtain ⟨r, a, b, c, h, he⟩ := ih (.down hs hl)
              exact ⟨r, a, b, c, .down hn ha h, he⟩
          | link target =>
              cases n with
              | zero => exact ⟨_, _, _, _, .here, .links hn ha⟩
              | succ n =>
                  have hq := (parts_iff target _).2 rfl
                  by_cases ht : target.head? = some '/'
                  · obtain ⟨r, a, b, c, h, he⟩ := ihn n (by omega) (_ ++ ps) Stack.root
                    exact ⟨r, a, b, c, .absolute hn ha ht hq h, he⟩
                  · obtain ⟨r, a, b, c, h, he⟩ := ihn n (by omega) (_ ++ ps) hs
                    exact ⟨r, a, b, c, .relative hn ha ht hq h, he⟩

theorem openFile_iff (root : Entries) (nameMax n : Nat) (path : List String) (r : Except FileErr (List UInt8)) :
    openFile root nameMax n root [] path = r ↔
      ∃ n' pos' path', Leads root nameMax n [] path n' pos' path' ∧ Ends root nameMax n' pos' path' r := by
  have key : ∀ r, (∃ n' pos' path', Leads root nameMax n [] path n' pos' path' ∧ Ends root nameMax n' pos' path' r) →
      openFile root nameMax n root [] path = r := by
    rintro r ⟨a, b, c, h, he⟩
    obtain ⟨cur, up, hs, e⟩ := leads_open h Stack.root
    rw [e]
    exact ends_open he hs
  refine ⟨?_, key r⟩
  rintro rfl
  obtain ⟨r, h⟩ := leads_ends root nameMax n path Stack.root
  rw [key r h]
  exact h

theorem leads_append {root : Entries} {nameMax n n' : Nat} {pos pos' path path' : List String}
    (h : Leads root nameMax n pos path n' pos' path') (rest : List String) :
    Leads root nameMax n pos (path ++ rest) n' pos' (path' ++ rest) := by
  induction h with
  | here => exact .here
  | stay hp _ ih => exact .stay hp ih
  | up _ ih => exact .up ih
  | down hp ha _ ih => exact .down hp ha ih
  | relative hp ha ht hq _ ih => exact .relative hp ha ht hq (by have := ih; rwa [List.append_assoc] at this)
  | absolute hp ha ht hq _ ih => exact .absolute hp ha ht hq (by have := ih; rwa [List.append_assoc] at this)

theorem leads_trans {root : Entries} {nameMax n n' n'' : Nat} {pos pos' pos'' path path' path'' : List String}
    (h : Leads root nameMax n pos path n' pos' path') (h' : Leads root nameMax n' pos' path' n'' pos'' path'') :
    Leads root nameMax n pos path n'' pos'' path'' := by
  induction h with
  | here => exact h'
  | stay hp _ ih => exact .stay hp (ih h')
  | up _ ih => exact .up (ih h')
  | down hp ha _ ih => exact .down hp ha (ih h')
  | relative hp ha ht hq _ ih => exact .relative hp ha ht hq (ih h')
  | absolute hp ha ht hq _ ih => exact .absolute hp ha ht hq (ih h')

theorem splitSlash_resource (name : List Char) :
    (splitSlash (resourceOf name)).map String.ofList =
      ["command_flag_option_info", "data"] ++ (splitSlash (name ++ ".json".toList)).map String.ofList := by
  have h := (parts_iff (resourceOf name) (["command_flag_option_info", "data"] ++ (splitSlash (name ++ ".json".toList)).map String.ofList)).1 ?_
  · exact h
  · have := Parts.more (s := "command_flag_option_info") (by decide +kernel)
      (Parts.more (s := "data") (by decide +kernel) ((parts_iff (name ++ ".json".toList) _).2 rfl))
    have e : "command_flag_option_info".toList ++ '/' :: ("data".toList ++ '/' :: (name ++ ".json".toList)) = resourceOf name := by
      rw [show resourceOf name = "command_flag_option_info/data/".toList ++ (name ++ ".json".toList) from rfl,
        show "command_flag_option_info/data/".toList = "command_flag_option_info".toList ++ '/' :: ("data".toList ++ ['/']) by
          decide +kernel]
      simp
    rw [e] at this
    exact this

theorem getData_path (m : Machine) (name : String) (path : List String) (hp : DataPath m name path) :
    getData m (resourceOf name.toList) =
      if m.pathMax ≤ (path.map fun p => p.utf8ByteSize + 1).sum then .error .nameTooLong
      else openFile m.root m.nameMax m.linkMax m.root [] path := by
  obtain ⟨qs, hq, rfl⟩ := hp
  unfold getData
  simp only [splitSlash_resource, (parts_iff _ _).1 hq]
  rw [List.filter_append, show (["command_flag_option_info", "data"] : List String).filter (· ≠ "") =
    ["command_flag_option_info", "data"] by decide +kernel]

theorem dataPath_exists (m : Machine) (name : String) : ∃ path, DataPath m name path :=
  ⟨_, _, (parts_iff _ _).2 rfl, rfl⟩

theorem dataPath_unique {m : Machine} {name : String} {path path' : List String} (h : DataPath m name path)
    (h' : DataPath m name path') : path = path' := by
  obtain ⟨qs, hq, rfl⟩ := h
  obtain ⟨qs', hq', rfl⟩ := h'
  rw [← (parts_iff _ _).1 hq, ← (parts_iff _ _).1 hq']

theorem getData_iff (m : Machine) (name : String) (r : Except FileErr (List UInt8)) :
    getData m (resourceOf name.toList) = r ↔ Opens m name r := by
  obtain ⟨path, hp⟩ := dataPath_exists m name
  rw [getData_path m name path hp]
  unfold Opens
  constructor
  · intro h
    refine ⟨path, hp, ?_⟩
    by_cases hs : Short m path
    · unfold Short at hs
      rw [if_neg (by omega), openFile_iff] at h
      exact .inl ⟨hs, h⟩
    · refine .inr ⟨hs, ?_⟩
      unfold Short at hs
      rw [if_pos (by omega)] at h
      exact h.symm
  · rintro ⟨path', hp', h⟩
    cases dataPath_unique hp hp'
    rcases h with ⟨hs, h⟩ | ⟨hs, rfl⟩
    · unfold Short at hs
      rw [if_neg (by omega), openFile_iff]
      exact h
    · unfold Short at hs
      rw [if_pos (by omega)]

/-- From the data directory. -/
theorem getData_below {m : Machine} {pos : List String} {es : Entries} (hd : DataDirectory m pos es) :
    ∃ n up, Stack m.root pos es up ∧ ∀ name path qs, DataPath m name path → Short m path → Parts (name.toList ++ ".json".toList) qs →
      getData m (resourceOf name.toList) = openFile m.root m.nameMax n es up (qs.filter (· ≠ "")) := by
  obtain ⟨⟨n, hl⟩, ha⟩ := hd
  have hl' := fun rest => leads_append hl rest
  obtain ⟨cur, up, hs, _⟩ := leads_open hl Stack.root
  have hc : cur = es := by
    have := at_unique ha (stack_at hs)
    cases this; rfl
  subst hc
  refine ⟨n, up, hs, fun name path qs hp hshort hq => ?_⟩
  rw [getData_path m name path hp]
  unfold Short at hshort
  rw [if_neg (by omega)]
  obtain ⟨qs', hq', rfl⟩ := hp
  have e : qs' = qs := by rw [← (parts_iff _ _).1 hq, ← (parts_iff _ _).1 hq']
  subst e
  obtain ⟨cur', up', hs', e'⟩ := leads_open (hl' (qs'.filter (· ≠ ""))) Stack.root
  obtain ⟨rfl, rfl⟩ := stack_unique hs hs'
  rw [List.append_assoc] at e'
  exact e'

/-! Staying below a directory. -/

theorem noLinks_inside {es es' : Entries} {p : String} (h : NoLinks es) (hl : es.lookup p = some (.dir es')) : NoLinks es' :=
  fun pos target ha => h (p :: pos) target (.inside hl ha)

/-- What is outside of a directory without links does not matter for paths that stay below it. -/
theorem openFile_stays (root root' : Entries) (nameMax n n' : Nat) (ps : List String) {d : Nat} (hst : StaysBelow d ps)
    {cur : Entries} {ins : List Entries} (hd : ins.length = d) (hl : NoLinks cur) (hi : ∀ es ∈ ins, NoLinks es) (out out' : List Entries) :
    openFile root nameMax n cur (ins ++ out) ps = openFile root' nameMax n' cur (ins ++ out') ps := by
  induction ps generalizing d cur ins with
  | nil => rw [openFile_nil, openFile_nil]
  | cons p ps ih =>
      rw [openFile_cons, openFile_cons]
      unfold StaysBelow at hst
      by_cases h1 : p = "" ∨ p = "."
      · rw [if_pos (by simpa using h1)] at hst
        rw [if_pos h1, if_pos h1]
        exact ih hst hd hl hi
      · rw [if_neg (by simpa using h1)] at hst
        rw [if_neg h1, if_neg h1]
        by_cases h2 : p = ".."
        · rw [if_pos h2] at hst
          rw [if_pos h2, if_pos h2]
          cases ins with
          | nil => simp only [List.length_nil] at hd; omega
          | cons a ins =>
              exact ih hst.2 (by simp only [List.length_cons] at hd; omega) (hi a (by simp)) (fun es he => hi es (by simp [he]))
        · rw [if_neg h2] at hst
          rw [if_neg h2, if_neg h2]
          split
          · rfl
          · cases hc : cur.lookup p with
            | none => rfl
            | some node =>
                cases node with
                | unreadable => rfl
                | closed => rfl
                | file text => rfl
                | dir es =>
                    exact ih (ins := cur :: ins) hst (by simp [hd]) (noLinks_inside hl hc)
                      (fun e he => by rcases List.mem_cons.1 he with rfl | he; exact hl; exact hi e he)
                | link target => exact absurd (At.here hc) (hl [p] target)

/-! The last part of a path. -/

theorem parts_suffix {l : List Char} {qs : List String} {b : String} (h : Parts l (qs ++ [b])) (s : String) (hs : '/' ∉ s.toList) :
    Parts (l ++ s.toList) (qs ++ [b ++ s]) := by
  generalize hr : qs ++ [b] = r at h
  induction h generalizing qs with
  | last hw =>
      cases qs with
      | nil =>
          simp only [List.nil_append, List.cons.injEq, and_true] at hr
          subst hr
          rw [← String.toList_append]
          exact .last (by rw [String.toList_append]; simp [hw, hs])
      | cons q qs => simp at hr
  | more hw h ih =>
      cases qs with
      | nil =>
          simp only [List.nil_append, List.cons.injEq] at hr
          obtain ⟨rfl, rfl⟩ := hr
          cases h
      | cons q qs =>
          simp only [List.cons_append, List.cons.injEq] at hr
          obtain ⟨rfl, hr⟩ := hr
          rw [List.append_assoc, List.cons_append]
          exact .more hw (ih hr)

theorem parts_snoc {l : List Char} {qs : List String} (h : Parts l qs) : ∃ rs b, qs = rs ++ [b] := by
  have : qs ≠ [] := by cases h <;> simp
  exact ⟨_, _, (List.dropLast_concat_getLast this).symm⟩

theorem parts_no_slash {l : List Char} {qs : List String} (h : Parts l qs) : ∀ q ∈ qs, '/' ∉ q.toList := by
  induction h with
  | last hw => simpa using hw
  | more hw _ ih => intro q hq; rcases List.mem_cons.1 hq with rfl | hq; exact hw; exact ih q hq

theorem parts_size {l : List Char} {qs : List String} (h : Parts l qs) :
    (qs.map fun p => p.utf8ByteSize + 1).sum = (String.ofList l).utf8ByteSize + 1 := by
  induction h with
  | last hw => simp
  | @more s l ps hw _ ih =>
      rw [List.map_cons, List.sum_cons, ih, String.ofList_append, String.utf8ByteSize_append, String.ofList_toList,
        show '/' :: l = ['/'] ++ l from rfl, String.ofList_append, String.utf8ByteSize_append]
      have : (String.ofList ['/']).utf8ByteSize = 1 := by decide +kernel
      omega

theorem parts_of {qs : List String} (hne : qs ≠ []) (h : ∀ q ∈ qs, '/' ∉ q.toList) : ∃ name : String, Parts name.toList qs := by
  induction qs with
  | nil => exact absurd rfl hne
  | cons q qs ih =>
      cases qs with
      | nil => exact ⟨q, .last (h q (by simp))⟩
      | cons r qs =>
          obtain ⟨name, hn⟩ := ih (by simp) (fun x hx => h x (List.mem_cons_of_mem _ hx))
          refine ⟨String.ofList (q.toList ++ '/' :: name.toList), ?_⟩
          rw [String.toList_ofList]
          exact .more (h q (by simp)) hn

theorem parts_chars {l : List Char} {qs : List String} (h : Parts l qs) {c : Char} (hc : c ∈ l) :
    c = '/' ∨ ∃ q ∈ qs, c ∈ q.toList := by
  induction h with
  | @last s hw => exact .inr ⟨s, by simp, hc⟩
  | @more s l ps hw _ ih =>
      rcases List.mem_append.1 hc with hc | hc
      · exact .inr ⟨s, by simp, hc⟩
      · rcases List.mem_cons.1 hc with rfl | hc
        · exact .inl rfl
        · rcases ih hc with h | ⟨q, hq, h⟩
          · exact .inl h
          · exact .inr ⟨q, by simp [hq], h⟩

/-! Going up to the root and down to a file. -/

theorem leads_ups (root : Entries) (nameMax n k : Nat) (pos rest : List String) (hk : pos.length ≤ k) :
    Leads root nameMax n pos (List.replicate k ".." ++ rest) n [] rest := by
  induction k generalizing pos with
  | zero =>
      have : pos = [] := List.length_eq_zero_iff.1 (by omega)
      subst this
      exact .here
  | succ k ih =>
      rw [List.replicate_succ, List.cons_append]
      exact .up (ih _ (by rw [List.length_dropLast]; omega))

theorem at_prefix {root : Entries} {a b : List String} {node : Node} (h : At root (a ++ b) node) (hb : b ≠ []) :
    ∃ es, At root a (.dir es) := by
  generalize hq : a ++ b = q at h
  induction h generalizing a with
  | root => simp at hq; exact absurd hq.2 hb
  | @here es p node hl =>
      cases a with
      | nil => exact ⟨es, .root⟩
      | cons x a =>
          simp only [List.cons_append, List.cons.injEq, List.append_eq_nil_iff] at hq
          exact absurd hq.2.2 hb
  | @inside es p es' ps node hl h ih =>
      cases a with
      | nil => exact ⟨es, .root⟩
      | cons x a =>
          simp only [List.cons_append, List.cons.injEq] at hq
          obtain ⟨rfl, hq⟩ := hq
          obtain ⟨es'', h'⟩ := ih hq
          exact ⟨es'', .inside hl h'⟩

theorem leads_down {root : Entries} {nameMax : Nat} (n : Nat) (pos dirs : List String) (b : String) {node : Node}
    (h : At root (pos ++ (dirs ++ [b])) node) (hn : ∀ p ∈ dirs, Name nameMax p) :
    Leads root nameMax n pos (dirs ++ [b]) n (pos ++ dirs) [b] := by
  induction dirs generalizing pos with
  | nil => simpa using Leads.here
  | cons d dirs ih =>
      have h' : At root ((pos ++ [d]) ++ (dirs ++ [b])) node := by simpa using h
      obtain ⟨es, ha⟩ := at_prefix h' (by simp)
      have := ih (pos ++ [d]) h' (fun p hp => hn p (by simp [hp]))
      rw [List.append_assoc] at this
      exact .down (hn d (by simp)) ha this

theorem staysBelow_filter {d : Nat} {qs : List String} (h : StaysBelow d qs) : StaysBelow d (qs.filter (· ≠ "")) := by
  induction qs generalizing d with
  | nil => exact h
  | cons q qs ih =>
      by_cases h0 : q = ""
      · subst h0
        simp only [ne_eq, not_true_eq_false, decide_false, Bool.false_eq_true, not_false_eq_true, List.filter_cons_of_neg]
        unfold StaysBelow at h
        rw [if_pos (by simp)] at h
        exact ih h
      · rw [List.filter_cons_of_pos (by simpa using h0)]
        unfold StaysBelow at h ⊢
        split
        · rename_i h1; rw [if_pos h1] at h; exact ih h
        · rename_i h1
          rw [if_neg h1] at h
          split
          · rename_i h2; rw [if_pos h2] at h; exact ⟨h.1, ih h.2⟩
          · rename_i h2; rw [if_neg h2] at h; exact ih h

/-! A directory of files. -/

theorem append_json_inj {a b : String} (h : a ++ ".json" = b ++ ".json") : a = b := by
  have := congrArg String.toList h
  rw [String.toList_append, String.toList_append] at this
  exact String.toList_inj.1 (List.append_cancel_right this)

theorem filesOf_lookup (texts : List (String × List Char)) (b : String) :
    (filesOf texts).lookup (b ++ ".json") =
      (texts.lookup b).map (fun t => Node.file (Encodings.Encoding.utf8.encode t)) := by
  induction texts with
  | nil => rfl
  | cons e texts ih =>
      unfold filesOf at ih ⊢
      rw [List.map_cons, List.lookup_cons, List.lookup_cons, ih]
      by_cases h : b = e.1
      · subst h; simp
      · rw [beq_false_of_ne h, beq_false_of_ne (fun e => h (append_json_inj e))]

theorem filesOf_any (texts : List (String × List Char)) (d : String) :
    match (filesOf texts).lookup d with
    | none => texts.any (fun e => e.1 ++ ".json" == d) = false
    | some node => (∃ bytes, node = .file bytes) ∧ texts.any (fun e => e.1 ++ ".json" == d) = true := by
  induction texts with
  | nil => rfl
  | cons e texts ih =>
      unfold filesOf at ih ⊢
      rw [List.map_cons, List.lookup_cons, List.any_cons]
      by_cases h : d = e.1 ++ ".json"
      · subst h
        simp
      · rw [beq_false_of_ne h, beq_false_of_ne (fun x => h x.symm), Bool.false_or]
        exact ih

/-- Opening what is named in a directory of files. -/
theorem open_files (root : Entries) (nameMax n : Nat) (texts : List (String × List Char)) (up : List Entries) (qs : List String) (b : String)
    (hb : Name nameMax b) (hq : ∀ q ∈ qs, q.utf8ByteSize ≤ nameMax) :
    match qs.filter (fun p => p != "" && p != ".") with
    | [] => openFile root nameMax n (filesOf texts) up (qs ++ [b]) =
        match (filesOf texts).lookup b with
        | some (.file text) => .ok text
        | _ => .error .noEntry
    | d :: _ => d ≠ ".." → openFile root nameMax n (filesOf texts) up (qs ++ [b]) =
        if texts.any (fun e => e.1 ++ ".json" == d) then .error .notDirectory else .error .noEntry := by
  induction qs with
  | nil =>
      have h1 := hb.1
      have h2 := hb.2
      simp only [List.mem_cons, List.not_mem_nil, or_false, not_or] at h1
      simp only [List.filter_nil, List.nil_append]
      rw [openFile_cons, if_neg (by simp [h1]), if_neg h1.2.2, if_neg (by omega)]
      have := filesOf_any texts b
      cases hl : (filesOf texts).lookup b with
      | none => rfl
      | some node =>
          rw [hl] at this
          obtain ⟨text, rfl⟩ := this.1
          rfl
  | cons q qs ih =>
      have ih := ih (fun x hx => hq x (List.mem_cons_of_mem _ hx))
      by_cases h1 : q = "" ∨ q = "."
      · have : (q != "" && q != ".") = false := by rcases h1 with rfl | rfl <;> rfl
        rw [List.filter_cons, this]
        simp only [Bool.false_eq_true, if_false, List.cons_append, openFile_cons, if_pos h1]
        exact ih
      · have : (q != "" && q != ".") = true := by
          simp only [not_or] at h1
          simp [h1]
        rw [List.filter_cons, this]
        simp only [if_true]
        intro h2
        rw [List.cons_append, openFile_cons, if_neg h1, if_neg h2, if_neg (by have := hq q (by simp); omega)]
        have := filesOf_any texts q
        cases hl : (filesOf texts).lookup q with
        | none => rw [hl] at this; rw [this]; rfl
        | some node =>
            rw [hl] at this
            obtain ⟨⟨text, rfl⟩, h⟩ := this
            rw [h]
            simp

theorem le_sum_of_mem {α : Type} (f : α → Nat) {l : List α} {a : α} (h : a ∈ l) : f a ≤ (l.map f).sum := by
  induction l with
  | nil => cases h
  | cons b l ih =>
      rw [List.map_cons, List.sum_cons]
      rcases List.mem_cons.1 h with rfl | h
      · omega
      · have := ih h; omega

theorem filter_sum_le {α : Type} (f : α → Nat) (p : α → Bool) (l : List α) : ((l.filter p).map f).sum ≤ (l.map f).sum := by
  induction l with
  | nil => simp
  | cons b l ih =>
      rw [List.filter_cons, List.map_cons, List.sum_cons]
      split
      · rw [List.map_cons, List.sum_cons]; omega
      · omega

/-! Command lines. -/

theorem parse_split (m : Machine) {s name : String} {ws : List String} (h : Shlex.split s = .ok (name :: ws)) :
    parse m s = (do
      let j ← getJson m name
      let r ← DataFiles.readWords j ws
      .ok ⟨name, r.1, r.2⟩) := by
  simp only [parse, h, bind, Except.bind]

theorem parse_join (m : Machine) (name : String) (ws : List String) :
    parse m (Shlex.join (name :: ws)) = (do
      let j ← getJson m name
      let r ← DataFiles.readWords j ws
      .ok ⟨name, r.1, r.2⟩) := parse_split m (Shlex.split_join _)

end PashAnn.Files
