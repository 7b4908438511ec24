import Verif.Spec.Streams

/-!
More programs, after their manuals, for C65 to C70: `cut`, `sed` and `xargs` on lines, and `tr`, `grep -z` and `cut -z`
on texts.
-/

namespace PashAnn.Spec

/-- `cut` behaves like its manual says, on one input of newline-terminated lines. `select` is what is printed for a line
(nothing for some lines with `-s`), `listed` tells which numbers are in the list given with `-f`. If the newline is the
delimiter of fields, the input is one record and its lines are the fields; if none of them is in the list, the output is
one empty line. -/
structure CutProgram (prog : Programs) (select : List FlagOptionWithIOVar → String → List String)
    (listed : List FlagOptionWithIOVar → Nat → Bool) : Prop where
  lines : ∀ fl x, Covered "cut" fl → ¬ Given fl "-z" → ¬ (Given fl "-f" ∧ argOf fl "-d" = some "\n") →
    prog "cut" fl [] [x] = x.flatMap (select fl)
  fields : ∀ fl x, Covered "cut" fl → ¬ Given fl "-z" → ¬ Given fl "--complement" → ¬ Given fl "--output-delimiter" →
    Given fl "-f" → argOf fl "-d" = some "\n" → 2 ≤ x.length →
    prog "cut" fl [] [x] = match (x.zipIdx 1).filter (fun l => listed fl l.2) with
      | [] => [""]
      | chosen => chosen.map Prod.fst

/-- `sed` behaves like its manual says, on one input, for the scripts in `plain`, which carry nothing over from one line
to the next: `act` is what is printed for a line, given its number and whether it is the last one. -/
structure SedProgram (prog : Programs) (plain : String → Prop)
    (act : List FlagOptionWithIOVar → String → Nat → Bool → String → List String) : Prop where
  lines : ∀ fl script x, Covered "sed" fl → plain script → ¬ Given fl "-z" →
    prog "sed" fl [script] [x] = (x.zipIdx 1).flatMap (fun l => act fl script l.2 (decide (l.2 = x.length)) l.1)
  /-- A command after a number is applied to the line with that number only; other lines are printed as they are,
  unless printing is switched off. A command does not begin with a digit. -/
  numbered : ∀ fl n cmd k last line, Covered "sed" fl → plain cmd → ¬ (∃ d ∈ cmd.toList.head?, d.isDigit) → ¬ Given fl "-n" →
    plain (toString (n + 1) ++ cmd) ∧
    act fl (toString (n + 1) ++ cmd) k last line = if k = n + 1 then act fl cmd k last line else [line]

/-- A command of sed after `$` is applied to the last line only; other lines are printed as they are, unless printing is switched
off. -/
def SedLast (plain : String → Prop) (act : List FlagOptionWithIOVar → String → Nat → Bool → String → List String) : Prop :=
  ∀ fl cmd k last line, Covered "sed" fl → plain cmd → ¬ Given fl "-n" →
    plain ("$" ++ cmd) ∧ act fl ("$" ++ cmd) k last line = if last = true then act fl cmd k last line else [line]

/-- `xargs` behaves like its manual says, for lines of blank-separated words without quotes. `run` is what the command
prints when it is run with some words as arguments. With `-n 1` it is run for each word, with `-L 1` for each line that
has words; without such options, and if all words fit in one command line, once for all words; if there are no words,
once without arguments, and with `-r` not at all. -/
structure XargsProgram (prog : Programs) (words : String → List String)
    (run : List FlagOptionWithIOVar → List String → List String → Stream) : Prop where
  single : ∀ fl strs x, Covered "xargs" fl → argOf fl "-n" = some "1" → ¬ (∃ n ∈ ["--null", "--delimiter", "-E", "-I", "-L", "-a"], Given fl n) →
    prog "xargs" fl strs [x] =
      if x.flatMap words = [] then (if Given fl "-r" then [] else run fl strs [])
      else (x.flatMap words).flatMap (fun w => run fl strs [w])
  lines : ∀ fl strs x, Covered "xargs" fl → argOf fl "-L" = some "1" → ¬ (∃ n ∈ ["--null", "--delimiter", "-E", "-I", "-n", "-a"], Given fl n) →
    (∀ l ∈ x, l.toList.getLast? ≠ some ' ' ∧ l.toList.getLast? ≠ some '\t') →
    prog "xargs" fl strs [x] =
      if x.flatMap words = [] then (if Given fl "-r" then [] else run fl strs [])
      else x.flatMap (fun l => if words l = [] then [] else run fl strs (words l))
  all : ∀ fl strs x, Covered "xargs" fl → ¬ (∃ n ∈ ["--null", "--delimiter", "-E", "-I", "-L", "-n", "-x", "-a"], Given fl n) →
    (x.flatMap words).length ≤ 2 →
    prog "xargs" fl strs [x] =
      if x.flatMap words = [] ∧ Given fl "-r" then [] else run fl strs (x.flatMap words)

/-! Texts. -/

/-- A text: its characters. -/
abbrev Text := List Char

/-- What a splitter makes of a text: consecutive parts, cut after newlines only. -/
def TextSplit (x : Text) (parts : List Text) : Prop :=
  parts.flatten = x ∧ ∀ part ∈ parts.dropLast, part = [] ∨ part.getLast? = some '\n'

/-- Remove a character that repeats the one before it, if it is in the set. -/
def squeeze (set : Char → Bool) : Text → Text
  | a :: b :: x => if a = b ∧ set a then squeeze set (b :: x) else a :: squeeze set (b :: x)
  | x => x

/-- What the manual of `tr` leaves open here: the characters a set stands for, and how characters are translated. -/
structure TrParameters where
  member : String → Char → Bool
  translate : List FlagOptionWithIOVar → List String → Char → Char

namespace TrParameters
variable (t : TrParameters) (fl : List FlagOptionWithIOVar) (sets : List String)

/-- The first set, complemented with `-c`. -/
def first (c : Char) : Bool := (t.member (sets.headD "") c) != decide (Given fl "-c")

/-- The last set; with only one set, complemented with `-c`. -/
def last (c : Char) : Bool := if sets.length ≤ 1 then t.first fl sets c else t.member (sets.getLastD "") c

/-- What becomes of a character: with `-d` those of the first set are deleted, otherwise it is translated if there are
two sets. -/
def image (c : Char) : Option Char :=
  if Given fl "-d" then (if t.first fl sets c then none else some c)
  else if sets.length ≤ 1 then some c else some (t.translate fl sets c)

/-- The output of `tr`: deleting or translating, and, with `-s`, then squeezing what is in the last set. -/
def tr (x : Text) : Text :=
  let y := x.filterMap (t.image fl sets)
  if Given fl "-s" then squeeze (t.last fl sets) y else y

end TrParameters

/-- The usages of `tr` that are not errors: one set with either `-d` or `-s`; two sets, and `-d` only together with
`-s`. -/
def TrUsage (fl : List FlagOptionWithIOVar) (sets : List String) : Prop :=
  (sets.length = 1 ∧ ¬ (Given fl "-d" ↔ Given fl "-s")) ∨ (sets.length = 2 ∧ (Given fl "-d" → Given fl "-s"))

instance (fl : List FlagOptionWithIOVar) (sets : List String) : Decidable (TrUsage fl sets) := by
  unfold TrUsage; infer_instance

/-- `tr` behaves like its manual says. The escape stands for the newline, and if the second set consists of it,
characters are kept or become newlines. -/
structure TrProgram (prog : ProgramsOn Char) (t : TrParameters) : Prop where
  output : ∀ fl sets x, Covered "tr" fl → TrUsage fl sets → prog "tr" fl sets [x] = t.tr fl sets x
  newline : ∀ c, t.member "\\n" c = decide (c = '\n')
  toNewline : ∀ fl s c, t.translate fl [s, "\\n"] c = c ∨ t.translate fl [s, "\\n"] c = '\n'

/-- The records of a text: what is between null characters; the last one needs none at its end. -/
def records : Text → List Text
  | [] => []
  | c :: x => if c = '\x00' then [] :: records x else match records x with
    | [] => [[c]]
    | r :: rs => (c :: r) :: rs

/-- What tells grep to print something else than the records that match. -/
def notRecords : List String :=
  ["-q", "-L", "-l", "-c", "-n", "-b", "-o", "-T", "-A", "--after-context", "-B", "--before-context", "-C", "--context", "-m",
    "--max-count", "--color", "--colour"]

/-- `grep -z` prints the records that match, each followed by a null character, if it is not told to print anything
else. -/
def GrepNullProgram (prog : ProgramsOn Char) (matching : List FlagOptionWithIOVar → List String → Text → Bool) : Prop :=
  ∀ fl strs x, Covered "grep" fl → Given fl "-z" → ¬ (∃ n ∈ notRecords, Given fl n) →
    prog "grep" fl strs [x] = ((records x).filter (matching fl strs)).flatMap (· ++ ['\x00'])

/-- `cut -z` prints some part of each record, followed by a null character. -/
def CutNullProgram (prog : ProgramsOn Char) (select : List FlagOptionWithIOVar → Text → Text) : Prop :=
  ∀ fl x, Covered "cut" fl → Given fl "-z" → ¬ Given fl "-s" → ¬ Given fl "--output-delimiter" →
    prog "cut" fl [] [x] = (records x).flatMap (fun r => select fl r ++ ['\x00'])

/-- A text whose records are each replaced by another text; a null character at its end stays. -/
def eachRecord (f : Text → Text) (x : Text) : Text :=
  List.intercalate ['\x00'] ((records x).map f) ++ (if x.getLast? = some '\x00' then ['\x00'] else [])

/-- `sed -z` behaves like its manual says, on one input, for the scripts in `simple`, which replace each record by another
text whatever comes before and after it, such as `s/a/b/` and `y/a/b/`: it adds no null character at the end if there is
none. -/
def SedNullProgram (prog : ProgramsOn Char) (simple : String → Prop)
    (change : List FlagOptionWithIOVar → String → Text → Text) : Prop :=
  ∀ fl script x, Covered "sed" fl → simple script → Given fl "-z" → ¬ Given fl "-n" →
    prog "sed" fl [script] [x] = eachRecord (change fl script) x

/-- `xargs --null -n 1` runs the command for each record, quotes and blanks have no meaning; `-r` as without `--null`. -/
def XargsNullProgram (prog : ProgramsOn Char) (run : List FlagOptionWithIOVar → List String → List Text → Text) : Prop :=
  ∀ fl strs x, Covered "xargs" fl → Given fl "--null" → argOf fl "-n" = some "1" →
    ¬ (∃ n ∈ ["--delimiter", "-E", "-I", "-L", "-a"], Given fl n) →
    prog "xargs" fl strs [x] =
      if records x = [] then (if Given fl "-r" then [] else run fl strs [])
      else (records x).flatMap (fun r => run fl strs [r])

/-! Programs that read some of their operands and write the others, for C69. -/

/-- What such programs do: the name and the contents of what is read, in order, give the contents of what is written,
in order. -/
abbrev FilePrograms := String → List Stream → List Stream

/-- A run of an invocation without implicit streams whose operands are variables: the first `k` operands are read and
the others written. `env` says what the variables hold in the end. -/
def FileRun (prog : FilePrograms) (k : Nat) (c : CommandInvocationWithIOVars) (env : IOVar → Stream) : Prop :=
  c.implicitInput = none ∧ c.implicitOutput = none ∧
    ∃ vs : List IOVar, c.operandList = vs.map VArg.var ∧ (vs.drop k).map env = prog c.cmdName ((vs.take k).map env)

/-- A run of the actual mapper on a part, with different variables for the input, the output and the auxiliary
outputs: the contents of the output and the auxiliary outputs. A mapper reads its first operand. -/
def AuxMapperRun (prog : FilePrograms) (p : Parallelizer) (c : CommandInvocationWithIOVars) (part : Stream)
    (outs : List Stream) : Prop :=
  ∃ i o aux m env, (i :: o :: aux).Nodup ∧ p.getActualMapper c i o aux = .ok (some m) ∧ FileRun prog 1 m env ∧
    env i = part ∧ outs = (o :: aux).map env

/-- Recombination by a binary tree of actual two-way aggregators with `n` auxiliary pipes. Such an aggregator reads its
first `2 * (n + 1)` operands. -/
inductive AuxJoined (prog : FilePrograms) (p : Parallelizer) (n : Nat) : List (List Stream) → List Stream → Prop
  | leaf (s : List Stream) : AuxJoined prog p n [s] s
  | node {l r : List (List Stream)} {a b : List Stream} {i₁ i₂ o : IOVar} {aux₁ aux₂ auxo : List IOVar}
      {agg : Aggregator} {env : IOVar → Stream}
      (hl : AuxJoined prog p n l a) (hr : AuxJoined prog p n r b)
      (hn : (i₁ :: aux₁ ++ i₂ :: aux₂ ++ o :: auxo).Nodup)
      (h : p.getActual2AryAggregatorWithAux i₁ aux₁ i₂ aux₂ o auxo = .ok agg)
      (hlen : aux₁.length = n ∧ aux₂.length = n) (hrun : FileRun prog (2 * (n + 1)) agg.cmd env)
      (ha : (i₁ :: aux₁).map env = a) (hb : (i₂ :: aux₂).map env = b) :
      AuxJoined prog p n (l ++ r) ((o :: auxo).map env)

/-- Executing the parallelizer `p` for `c` with the given parts can give these contents of the output and of the
auxiliary outputs. -/
def AuxExecutes (prog : FilePrograms) (p : Parallelizer) (c : CommandInvocationWithIOVars) (parts : List Stream)
    (ys : List Stream) : Prop :=
  ∃ runs : List (Stream × List Stream), parts = runs.map Prod.fst ∧ (∀ r ∈ runs, AuxMapperRun prog p c r.1 r.2) ∧
    AuxJoined prog p p.infoMapperAggregator (runs.map Prod.snd) ys

/-- The lines of an input, each with its successor. -/
def bigrams : Stream → Stream
  | a :: b :: x => (a ++ "\t" ++ b) :: bigrams (b :: x)
  | _ => []

/-- `paste` for two files of at most one line: both, separated by a tab; the missing line counts as empty. -/
def pasteLines : Stream → Stream → Stream
  | [], [] => []
  | a, b => [a.headD "" ++ "\t" ++ b.headD ""]

/-- The shell functions `bigram_aux_map` and `bigram_aux_reduce` of the system that uses the library. The first writes
the bigrams of its input, its first line and its last line; the second puts the bigram of the last line of the left
part and the first line of the right part between the bigrams of the parts, and passes on the outer lines. What is read
and written is also recorded in old_annotations/bigram_aux_map.json and bigram_aux_reduce.json. -/
structure BigramPrograms (prog : FilePrograms) : Prop where
  map : ∀ x, prog "bigram_aux_map" [x] = [bigrams x, x.take 1, x.getLast?.toList]
  reduce : ∀ o₁ h₁ t₁ o₂ h₂ t₂,
    prog "bigram_aux_reduce" [o₁, h₁, t₁, o₂, h₂, t₂] = [o₁ ++ pasteLines t₁ h₂ ++ o₂, h₁, t₂]

end PashAnn.Spec
