import Verif.Props.TextPlans
import Verif.Props.Batches

/-! C70, exactly: for which programs that work on null-terminated records splitting at newlines is right. Specification:
`Spec/Programs.lean`. -/

namespace PashAnn
open Spec

theorem getLast?_after {α : Type} {a : α} {l : List α} (r : List α) (h : l ≠ []) : (r ++ a :: l).getLast? = l.getLast? := by
  rw [show r ++ a :: l = (r ++ [a]) ++ l by simp, List.getLast?_append]
  rw [List.getLast?_eq_some_getLast h]; rfl

/-- What a program prints that works record by record: `f` for a last record without a null character, `h` for a record
with one. -/
structure ByRecord (E f h : Text → Text) : Prop where
  none : E [] = []
  last : ∀ r, '\x00' ∉ r → r ≠ [] → E r = f r
  more : ∀ r rest, '\x00' ∉ r → E (r ++ '\x00' :: rest) = h r ++ E rest

theorem byRecord_append {E f h : Text → Text} (hE : ByRecord E f h)
    (hc : ∀ a b, '\x00' ∉ a → '\x00' ∉ b →
      (b ≠ [] → f (a ++ '\n' :: b) = f (a ++ ['\n']) ++ f b) ∧ h (a ++ '\n' :: b) = f (a ++ ['\n']) ++ h b)
    (n : Nat) (p q : Text) (hn : p.length ≤ n) (hp : p = [] ∨ p.getLast? = some '\n') : E (p ++ q) = E p ++ E q := by
  induction n generalizing p with
  | zero =>
      have : p = [] := List.length_eq_zero_iff.1 (by omega)
      subst this
      rw [hE.none]; rfl
  | succ n ih =>
      by_cases h0 : '\x00' ∈ p
      · obtain ⟨r, p', rfl, hr⟩ := List.eq_append_cons_of_mem h0
        have hp' : p' = [] ∨ p'.getLast? = some '\n' := by
          rcases hp with hp | hp
          · simp at hp
          · by_cases e : p' = []
            · exact .inl e
            · refine .inr ?_
              rwa [getLast?_after _ e] at hp
        rw [List.append_assoc, List.cons_append, hE.more _ _ hr, hE.more _ _ hr,
          ih p' (by simp at hn; omega) hp', List.append_assoc]
      · rcases hp with rfl | hp
        · rw [hE.none]; rfl
        · obtain ⟨a, rfl⟩ := List.getLast?_eq_some_iff.1 hp
          have ha : '\x00' ∉ a := fun h => h0 (by simp [h])
          rw [hE.last _ h0 (by simp)]
          by_cases hq : '\x00' ∈ q
          · obtain ⟨b, q', rfl, hb⟩ := List.eq_append_cons_of_mem hq
            rw [hE.more _ _ hb, ← List.append_assoc (f _), ← (hc a b ha hb).2,
              show a ++ ['\n'] ++ (b ++ '\x00' :: q') = (a ++ '\n' :: b) ++ '\x00' :: q' by simp,
              hE.more _ _ (by simp [ha, hb])]
          · by_cases e : q = []
            · subst e
              rw [hE.none, List.append_nil, List.append_nil, hE.last _ h0 (by simp)]
            · rw [hE.last q hq e, ← (hc a q ha hq).1 e,
                show a ++ ['\n'] ++ q = a ++ '\n' :: q by simp, hE.last _ (by simp [ha, hq]) (by simp)]

/-- Such a program is right on all splits at newlines exactly if splitting a record at a newline makes no difference. -/
theorem byRecord_splits {E f h : Text → Text} (hE : ByRecord E f h) :
    (∀ x parts, TextSplit x parts → (parts.map E).flatten = E x) ↔
      ∀ a b, '\x00' ∉ a → '\x00' ∉ b →
        (b ≠ [] → f (a ++ '\n' :: b) = f (a ++ ['\n']) ++ f b) ∧ h (a ++ '\n' :: b) = f (a ++ ['\n']) ++ h b := by
  constructor
  · intro hall a b ha hb
    have hab : '\x00' ∉ a ++ '\n' :: b := by simp [ha, hb]
    have han : '\x00' ∉ a ++ ['\n'] := by simp [ha]
    constructor
    · intro hne
      have e := hall (a ++ '\n' :: b) [a ++ ['\n'], b] ⟨by simp, by simp⟩
      simp only [List.map_cons, List.map_nil, List.flatten_cons, List.flatten_nil, List.append_nil] at e
      rw [hE.last _ han (by simp), hE.last _ hb hne, hE.last _ hab (by simp)] at e
      exact e.symm
    · have e := hall (a ++ '\n' :: (b ++ ['\x00'])) [a ++ ['\n'], b ++ ['\x00']] ⟨by simp, by simp⟩
      simp only [List.map_cons, List.map_nil, List.flatten_cons, List.flatten_nil, List.append_nil] at e
      rw [hE.last _ han (by simp), hE.more b [] hb,
        show a ++ '\n' :: (b ++ ['\x00']) = (a ++ '\n' :: b) ++ '\x00' :: [] by simp, hE.more _ [] hab, hE.none,
        List.append_nil, List.append_nil] at e
      exact e.symm
  · intro hc x parts ⟨hx, hp⟩
    subst hx
    induction parts with
    | nil => exact hE.none.symm
    | cons a l ih =>
        cases l with
        | nil => simp
        | cons b l =>
            rw [List.map_cons, List.flatten_cons, ih (fun part hm => hp part (by simp [hm])),
              ← byRecord_append hE hc _ a _ (Nat.le_refl _) (hp a (by simp))]
            rfl

theorem records_more (r rest : Text) (h : '\x00' ∉ r) : records (r ++ '\x00' :: rest) = r :: records rest := by
  induction r with
  | nil => simp [records]
  | cons a r ih =>
      have ha : a ≠ '\x00' := fun e => h (by simp [e])
      rw [List.cons_append, records, if_neg ha, ih (fun hm => h (List.mem_cons_of_mem _ hm))]

theorem byRecord_flatMap (f : Text → Text) : ByRecord (fun x => (records x).flatMap f) f f where
  none := rfl
  last := by intro r h hr; simp [records_no_null r h hr]
  more := by intro r rest h; simp [records_more r rest h]

theorem records_nil {x : Text} : records x = [] ↔ x = [] := by
  constructor
  · intro h
    cases x with
    | nil => rfl
    | cons a x =>
        unfold records at h
        split at h
        · cases h
        · cases e : records x <;> rw [e] at h <;> cases h
  · rintro rfl; rfl

theorem byRecord_each (f : Text → Text) : ByRecord (eachRecord f) f (fun r => f r ++ ['\x00']) where
  none := rfl
  last := by
    intro r h hr
    have : r.getLast? ≠ some '\x00' := fun e => h (List.mem_of_getLast? e)
    simp [eachRecord, records_no_null r h hr, this, List.intercalate]
  more := by
    intro r rest h
    unfold eachRecord
    rw [records_more r rest h]
    cases rest with
    | nil => simp [records, List.intercalate]
    | cons a t =>
        have hne : records (a :: t) ≠ [] := fun e => by simpa using records_nil.1 e
        obtain ⟨b, l, e⟩ := List.exists_cons_of_ne_nil hne
        rw [getLast?_after r (by simp), e]
        simp [List.intercalate]

/-- Executing plans that split at newlines and concatenate is right on all texts exactly if the program's output on the
parts, one after the other, always is its output on the whole. -/
theorem concatenation_exact {prog : ProgramsOn Char} (hcat : CatProgram prog) {c : CommandInvocationWithIOVars} (hc : OneStream c)
    {inv : CommandInvocationInitial} (hoff : ∀ p, Offered inv p ↔ p ∈ bothPlans concatenation) :
    (∀ p x parts y, Offered inv p → TextSplit x parts → Executes prog p c parts y → y = sequential prog c x) ↔
      ∀ x parts, TextSplit x parts → (parts.map (sequential prog c)).flatten = sequential prog c x := by
  constructor
  · intro h x parts hsp
    have hp : plan .consecChunks concatenation ∈ bothPlans concatenation := by simp [bothPlans]
    obtain ⟨y, hy⟩ := executable_concatenation prog hc hp parts
    rw [← executes_concatenation hcat hc hp hy]
    exact h _ x parts y ((hoff _).2 hp) hsp hy
  · intro h p x parts y hp hsp hy
    rw [executes_concatenation hcat hc ((hoff p).1 hp) hy]
    exact h x parts hsp

/-- C70 for sed, exactly: sed with `-z` and a script that replaces each record by itself is split correctly at newlines
exactly if the script gives the same on a record and on the pieces into which a newline cuts it. -/
theorem C70_sed_exact (inv : CommandInvocationInitial) (hn : inv.cmdName = "sed") (hz : Has inv "-z") (hq : ¬ Has inv "-n")
    (script : String) (files : List String) (hop : inv.operandList = script :: files)
    (hs : StartsWith "s" script ∨ (¬ Occurs "d" script ∧ ¬ Occurs "q" script))
    (prog : ProgramsOn Char) (hcat : CatProgram prog)
    (simple : String → Prop) (change : List FlagOptionWithIOVar → String → Text → Text)
    (hsed : SedNullProgram prog simple change) (hsim : simple script)
    (c : CommandInvocationWithIOVars) (hb : Belongs inv c) (hcov : Covered "sed" c.flagOptionList) (hc : OneStream c)
    (hstr : strOperands c = [script]) :
    (∃ p, Offered inv p) ∧
    ((∀ p x parts y, Offered inv p → TextSplit x parts → Executes prog p c parts y → y = sequential prog c x) ↔
      ∀ a b, '\x00' ∉ a → '\x00' ∉ b →
        change c.flagOptionList script (a ++ '\n' :: b) =
          change c.flagOptionList script (a ++ ['\n']) ++ change c.flagOptionList script b) := by
  have hoff : ∀ p, Offered inv p ↔ p ∈ bothPlans concatenation := by
    intro p
    rw [offered_sed hn hop]
    exact and_iff_right (hs.elim (fun h => .inr (.inl h)) (fun h => .inr (.inr h)))
  refine ⟨⟨plan .consecChunks concatenation, (hoff _).2 (by simp [bothPlans])⟩, ?_⟩
  have hseq : sequential prog c = eachRecord (change c.flagOptionList script) := by
    funext z
    unfold sequential
    rw [hb.1, hn, hstr, hsed _ _ _ hcov hsim ((has_iff_given hb _).1 hz) (fun h => hq ((has_iff_given hb _).2 h))]
  rw [concatenation_exact hcat hc hoff, hseq, byRecord_splits (byRecord_each _)]
  constructor
  · intro h a b ha hb
    have := (h a b ha hb).2
    rw [← List.append_assoc] at this
    exact List.append_cancel_right this
  · intro h a b ha hb
    exact ⟨fun _ => h a b ha hb, by rw [h a b ha hb, List.append_assoc]⟩

/-- C70 for `xargs --null -n 1 -r`, exactly: it is split correctly at newlines exactly if the command prints the same when
it is run for a word and for the pieces into which a newline cuts it. -/
theorem C70_xargs_exact (inv : CommandInvocationInitial) (hn : inv.cmdName = "xargs") (hz : Has inv "--null")
    (hr : Has inv "-r") (hx : ¬ ∃ n ∈ ["--delimiter", "-E", "-I", "-L", "-a"], Has inv n)
    (prog : ProgramsOn Char) (hcat : CatProgram prog) (run : List FlagOptionWithIOVar → List String → List Text → Text)
    (hxa : XargsNullProgram prog run) (c : CommandInvocationWithIOVars) (hb : Belongs inv c)
    (hcov : Covered "xargs" c.flagOptionList) (hc : OneStream c) (h1 : argOf c.flagOptionList "-n" = some "1") :
    (∃ p, Offered inv p) ∧
    ((∀ p x parts y, Offered inv p → TextSplit x parts → Executes prog p c parts y → y = sequential prog c x) ↔
      ∀ a b, '\x00' ∉ a → '\x00' ∉ b →
        run c.flagOptionList (strOperands c) [a ++ '\n' :: b] =
          run c.flagOptionList (strOperands c) [a ++ ['\n']] ++ run c.flagOptionList (strOperands c) [b]) := by
  have hoff := offered_line (inv := inv) (by simp [hn])
  refine ⟨⟨plan .consecChunks concatenation, (hoff _).2 (by simp [bothPlans])⟩, ?_⟩
  have hseq : sequential prog c = fun z => (records z).flatMap (fun r => run c.flagOptionList (strOperands c) [r]) := by
    funext z
    unfold sequential
    rw [hb.1, hn, hxa _ _ _ hcov ((has_iff_given hb _).1 hz) h1
      (by rintro ⟨n, hn, h⟩; exact hx ⟨n, hn, (has_iff_given hb n).2 h⟩), if_pos ((has_iff_given hb _).1 hr)]
    by_cases e : records z = []
    · rw [if_pos e, e]; rfl
    · rw [if_neg e]
  rw [concatenation_exact hcat hc hoff, hseq, byRecord_splits (byRecord_flatMap _)]
  exact ⟨fun h a b ha hb => (h a b ha hb).2, fun h a b ha hb => ⟨fun _ => h a b ha hb, h a b ha hb⟩⟩

/-- C70 for grep, exactly: grep with `-z` is split correctly at newlines exactly if no record at all matches. -/
theorem C70_grep_exact (inv : CommandInvocationInitial) (hn : inv.cmdName = "grep") (hz : Has inv "-z")
    (hx : ¬ ∃ n ∈ notRecords, Has inv n)
    (prog : ProgramsOn Char) (hcat : CatProgram prog)
    (matching : List FlagOptionWithIOVar → List String → Text → Bool) (hg : GrepNullProgram prog matching)
    (c : CommandInvocationWithIOVars) (hb : Belongs inv c) (hcov : Covered "grep" c.flagOptionList) (hc : OneStream c) :
    (∃ p, Offered inv p) ∧
    ((∀ p x parts y, Offered inv p → TextSplit x parts → Executes prog p c parts y → y = sequential prog c x) ↔
      ∀ r, '\x00' ∉ r → matching c.flagOptionList (strOperands c) r = false) := by
  have hi : getParallelizabilityInfo inv = some (offers (bothPlans concatenation)) := by
    refine grep_offered hn ⟨fun h => hx ⟨"-q", by simp [notRecords], h⟩, .inr ?_⟩
    rintro ⟨n, hn, h⟩
    refine hx ⟨n, ?_, h⟩
    simp only [grepSpecial, List.mem_cons, List.not_mem_nil, or_false] at hn
    rcases hn with rfl | rfl | rfl | rfl | rfl <;> simp [notRecords]
  have hoff : ∀ p, Offered inv p ↔ p ∈ bothPlans concatenation := by
    intro p
    rw [offered_iff]
    constructor
    · rintro ⟨i, hi', hp⟩
      rw [hi] at hi'; cases hi'
      rcases hp with hp | ⟨hp, _⟩
      · exact hp
      · cases hp
    · intro hp; exact ⟨_, hi, .inl hp⟩
  refine ⟨⟨plan .consecChunks concatenation, (hoff _).2 (by simp [bothPlans])⟩, ?_⟩
  let m := matching c.flagOptionList (strOperands c)
  let f : Text → Text := fun r => if m r then r ++ ['\x00'] else []
  have hseq : sequential prog c = fun z => (records z).flatMap f := by
    funext z
    unfold sequential
    rw [hb.1, hn, hg _ _ _ hcov ((has_iff_given hb _).1 hz) (by rintro ⟨n, hn, h⟩; exact hx ⟨n, hn, (has_iff_given hb n).2 h⟩)]
    induction records z with
    | nil => rfl
    | cons a l ih =>
        rw [List.filter_cons, List.flatMap_cons, ← ih]
        by_cases e : matching c.flagOptionList (strOperands c) a = true
        · rw [if_pos e, show f a = a ++ ['\x00'] from if_pos e, List.flatMap_cons]
        · rw [if_neg e, show f a = [] from if_neg e, List.nil_append]
  rw [concatenation_exact hcat hc hoff, hseq, byRecord_splits (byRecord_flatMap f)]
  have hf : ∀ r, f r = [] ↔ m r = false := by
    intro r
    show (if m r then r ++ ['\x00'] else []) = [] ↔ m r = false
    cases m r <;> simp
  have hcount : ∀ r, '\x00' ∉ r → m r = true → List.count '\x00' (f r) = 1 := by
    intro r h0 hm
    show List.count '\x00' (if m r then r ++ ['\x00'] else []) = 1
    rw [if_pos hm, List.count_append, List.count_eq_zero.2 h0]; rfl
  constructor
  · intro h r hr
    have h0 : f [] = [] := by
      have := (h [] [] (by simp) (by simp)).2
      simpa using this
    by_cases hm : m r = true
    · exfalso
      have hne : r ≠ [] := by
        rintro rfl
        rw [(hf []).1 h0] at hm; cases hm
      -- the record `\n` followed by `r`
      have e := (h [] r (by simp) hr).2
      simp only [List.nil_append] at e
      have hnr : '\x00' ∉ '\n' :: r := by simp [hr]
      have hfr : f r = r ++ ['\x00'] := if_pos hm
      by_cases hm' : m ('\n' :: r) = true
      · have hfn : f ('\n' :: r) = '\n' :: r ++ ['\x00'] := if_pos hm'
        have hc1 := congrArg (List.count '\x00') e
        rw [List.count_append, hcount _ hnr hm', hcount _ hr hm] at hc1
        by_cases hm1 : m ['\n'] = true
        · rw [hcount _ (by simp) hm1] at hc1; omega
        · have : f ['\n'] = [] := (hf _).2 (by simpa using hm1)
          rw [this, hfn, hfr, List.nil_append] at e
          have := congrArg List.length e
          simp at this
      · rw [(hf _).2 (by simpa using hm')] at e
        rw [hfr] at e
        have := congrArg List.length e
        simp at this
    · simpa using hm
  · intro h a b ha hb
    have e1 : f (a ++ '\n' :: b) = [] := (hf _).2 (h _ (by simp [ha, hb]))
    have e2 : f (a ++ ['\n']) = [] := (hf _).2 (h _ (by simp [ha]))
    have e3 : f b = [] := (hf _).2 (h _ hb)
    rw [e1, e2, e3]
    simp

/-- Programs with `cat`, `sed -z` that changes every `a` to `b`, and `xargs --null -n 1` with a command that prints
nothing. -/
def recordProgs : ProgramsOn Char := fun n _ _ ins =>
  if n = "cat" then ins.flatten
  else if n = "sed" then eachRecord (fun r => r.map (fun ch => if ch = 'a' then 'b' else ch)) ins.flatten
  else []

example : CatProgram recordProgs ∧
    SedNullProgram recordProgs (· = "s/a/b/g") (fun _ _ r => r.map (fun ch => if ch = 'a' then 'b' else ch)) ∧
    XargsNullProgram recordProgs (fun _ _ _ => []) := by
  refine ⟨fun _ => rfl, ?_, ?_⟩
  · intro fl script x _ _ _ _; simp [recordProgs]
  · intro fl strs x _ _ _ _
    simp [recordProgs]

/-- Changing every `a` is right; changing the first one only, as `s/a/b/` does, is not. -/
example : (∀ a b : Text, (a ++ '\n' :: b).map (fun ch => if ch = 'a' then 'b' else ch) =
      (a ++ ['\n']).map (fun ch => if ch = 'a' then 'b' else ch) ++ b.map (fun ch => if ch = 'a' then 'b' else ch)) ∧
    ¬ ∀ a b : Text, (fun r : Text => if 'a' ∈ r then r.takeWhile (· ≠ 'a') ++ 'b' :: (r.dropWhile (· ≠ 'a')).tail else r) (a ++ '\n' :: b) =
      (fun r : Text => if 'a' ∈ r then r.takeWhile (· ≠ 'a') ++ 'b' :: (r.dropWhile (· ≠ 'a')).tail else r) (a ++ ['\n']) ++
      (fun r : Text => if 'a' ∈ r then r.takeWhile (· ≠ 'a') ++ 'b' :: (r.dropWhile (· ≠ 'a')).tail else r) b := by
  refine ⟨fun a b => by simp, fun h => ?_⟩
  exact absurd (h ['a'] ['a']) (by decide)

def sedNullSample (script : String) : CommandInvocationWithIOVars :=
  ⟨"sed", [.flag "-z"], [.str script], some 1, some 2, [(1, .streamInput), (2, .streamOutput)]⟩

theorem sedNullSample_ok (script : String) : OneStream (sedNullSample script) where
  described := by
    intro v hv
    simp only [sedNullSample, occurrences, List.flatMap_nil, List.flatMap_cons, optionVar, varOf, List.append_nil, List.nil_append,
      Option.toList_some, List.mem_append, List.mem_singleton] at hv
    rcases hv with rfl | rfl <;> simp [sedNullSample, accessOf, List.lookup]
  distinct := by simp [sedNullSample, occurrences, varOf, optionVar]
  input := ⟨1, by simp [sedNullSample, withAccess, occurrences, varOf, optionVar, accessOf, List.lookup]⟩
  out := ⟨2, by simp [sedNullSample, withAccess, occurrences, varOf, optionVar, accessOf, List.lookup], rfl⟩
  options := by intro n v hm; simp [sedNullSample] at hm
  implicit := by intro i h; cases h; rfl

example : ∃ inv, parse "sed -z s/a/b/g" = .ok inv ∧ inv.cmdName = "sed" ∧ Has inv "-z" ∧ ¬ Has inv "-n" ∧
    inv.operandList = "s/a/b/g" :: [] ∧ StartsWith "s" "s/a/b/g" ∧ Belongs inv (sedNullSample "s/a/b/g") ∧
    Covered "sed" (sedNullSample "s/a/b/g").flagOptionList ∧ OneStream (sedNullSample "s/a/b/g") ∧
    strOperands (sedNullSample "s/a/b/g") = ["s/a/b/g"] :=
  ⟨⟨"sed", [.flag "-z"], ["s/a/b/g"]⟩, by decide +kernel, rfl, by simp [Has], by simp [Has], rfl, ⟨"/a/b/g".toList, by decide +kernel⟩,
    ⟨rfl, rfl⟩, by decide +kernel, sedNullSample_ok _, rfl⟩

example : ∃ inv, parse "xargs --null -r -n 1 echo" = .ok inv ∧ inv.cmdName = "xargs" ∧ Has inv "--null" ∧ Has inv "-r" ∧
    (¬ ∃ n ∈ ["--delimiter", "-E", "-I", "-L", "-a"], Has inv n) ∧
    Belongs inv (xargsSample [.flag "--null", .flag "-r", .optionVar 0 "-n" (.str "1")]) ∧
    Covered "xargs" (xargsSample [.flag "--null", .flag "-r", .optionVar 0 "-n" (.str "1")]).flagOptionList ∧
    OneStream (xargsSample [.flag "--null", .flag "-r", .optionVar 0 "-n" (.str "1")]) ∧
    argOf (xargsSample [.flag "--null", .flag "-r", .optionVar 0 "-n" (.str "1")]).flagOptionList "-n" = some "1" :=
  ⟨⟨"xargs", [.flag "--null", .flag "-r", .option "-n" "1"], ["echo"]⟩, by decide +kernel, rfl, by simp [Has], by simp [Has],
    by simp [Has], ⟨rfl, rfl⟩, by decide +kernel, xargsSample_ok _ (by simp [optionVar]), by decide +kernel⟩

end PashAnn
