import Verif.Spec.Parallel
import Verif.Spec.Vars

/-!
What executing a parallelizer means, for C53 to C56: the input is split, the actual mapper is run on each part, and
the outputs are recombined by the actual aggregator. The programs are arbitrary functions; what is assumed of `cat`,
`grep`, `sort` and `uniq` is written down below, after their manuals. The splitters and the arrangement of aggregators
are those of the runtime system that uses the library, as described in Splitter.py and in the comments of
AggregatorKind.py.
-/

namespace PashAnn.Spec

/-- A stream: its lines. -/
abbrev Stream := List String

/-- What programs do, on streams of any kind of element: the name, the flags and options, the operands that are not
files, and the contents of the streaming inputs in order give the output. -/
abbrev ProgramsOn (α : Type) := String → List FlagOptionWithIOVar → List String → List (List α) → List α

/-- What programs do on streams of lines. -/
abbrev Programs := ProgramsOn String

variable {α : Type}

/-- The operands that are plain strings. -/
def strOperands (c : CommandInvocationWithIOVars) : List String :=
  c.operandList.filterMap fun
    | .str s => some s
    | _ => none

/-- The output of an invocation when its variables hold the given streams. -/
def output (prog : ProgramsOn α) (env : IOVar → List α) (c : CommandInvocationWithIOVars) : List α :=
  prog c.cmdName c.flagOptionList (strOperands c) ((withAccess c .streamInput).map env)

/-- The output of an invocation with one streaming input on a given input. -/
def sequential (prog : ProgramsOn α) (c : CommandInvocationWithIOVars) (x : List α) : List α :=
  prog c.cmdName c.flagOptionList (strOperands c) [x]

/-- A proper invocation with one streaming input and one streaming output, which is its standard output, and without
files in `OptionWithIO` objects. -/
structure OneStream (c : CommandInvocationWithIOVars) : Prop where
  described : Described c
  distinct : (occurrences c).Nodup
  input : ∃ i, withAccess c .streamInput = [i]
  out : ∃ o, withAccess c .streamOutput = [o] ∧ c.implicitOutput = some o
  options : ∀ n v, FlagOptionWithIOVar.optionIO n (.var v) ∉ c.flagOptionList
  implicit : ∀ i, c.implicitInput = some i → accessOf c i = some .streamInput

/-- The invocation with variables belongs to the parsed one: same command, same flags and options. -/
def Belongs (inv : CommandInvocationInitial) (c : CommandInvocationWithIOVars) : Prop :=
  c.cmdName = inv.cmdName ∧ c.flagOptionList.map (·.getName) = inv.flagOptionList.map (·.getName)

/-- Dealing blocks of lines to workers, in order, without marking the blocks. -/
inductive Dealt : List α → List (List α) → Prop
  | start (workers : Nat) : Dealt [] (List.replicate workers [])
  | block {x worker block : List α} {before after : List (List α)} (h : Dealt x (before ++ worker :: after)) :
      Dealt (x ++ block) (before ++ (worker ++ block) :: after)

/-- The parts a splitter can make of an input. Individual files and consecutive chunks are consecutive parts. Plain
round robin runs the mapper on each block and puts the outputs back in order, so its parts are the blocks. With the
unwrap flag the workers get what is dealt to them as one stream. -/
def Split : Splitter → List α → List (List α) → Prop
  | .roundRobinUnwrapFlag, x, parts => Dealt x parts
  | _, x, parts => parts.flatten = x

/-- A variable that is not used yet. -/
def Unused (c : CommandInvocationWithIOVars) (v : IOVar) : Prop := v ∉ occurrences c ∧ accessOf c v = none

/-- A run of the actual mapper, with new variables, on a part. -/
def MapperRun (prog : ProgramsOn α) (p : Parallelizer) (c : CommandInvocationWithIOVars) (part out : List α) : Prop :=
  ∃ i o m env, Unused c i ∧ Unused c o ∧ o ≠ i ∧ p.getActualMapper c i o [] = .ok (some m) ∧ env i = part ∧
    out = output prog env m

/-- Recombination by a binary tree of actual two-way aggregators over consecutive outputs. -/
inductive Joined (prog : ProgramsOn α) (p : Parallelizer) (c : CommandInvocationWithIOVars) : List (List α) → List α → Prop
  | leaf (s : List α) : Joined prog p c [s] s
  | node {l r : List (List α)} {a b : List α} {x y o : IOVar} {agg : Aggregator} {env : IOVar → List α}
      (hl : Joined prog p c l a) (hr : Joined prog p c r b) (hx : Unused c x) (hy : Unused c y) (ho : Unused c o)
      (hxy : x ≠ y ∧ o ≠ x ∧ o ≠ y) (h : p.getActualAggregator c [x, y] o = .ok (some agg))
      (ha : env x = a) (hb : env y = b) : Joined prog p c (l ++ r) (output prog env agg.cmd)

/-- Joining at adjacent lines: the command is applied to the last line of the left and the first line of the right
output, and the result is put between the rest (AggregatorKind.py:5-6, 10). An empty output has no such line. -/
def splice (f : List α → List α) (a b : List α) : List α :=
  match a.getLast?, b with
  | some l, r :: b' => a.dropLast ++ f [l, r] ++ b'
  | _, _ => a ++ b

/-- Joining consecutive outputs at adjacent lines, in any order. -/
inductive Spliced (f : List α → List α) : List (List α) → List α → Prop
  | leaf (s : List α) : Spliced f [s] s
  | node {l r : List (List α)} {a b : List α} (hl : Spliced f l a) (hr : Spliced f r b) : Spliced f (l ++ r) (splice f a b)

/-- Recombination by the actual aggregator; for the adjacent-lines kind, which the library only names, by the runtime
system. -/
inductive Recombined (prog : ProgramsOn α) (p : Parallelizer) (c : CommandInvocationWithIOVars) :
    List (List α) → List α → Prop
  | concatenate {vars : List IOVar} {o : IOVar} {agg : Aggregator} {env : IOVar → List α}
      (hk : p.coreAggregatorSpec.kind = .concatenate) (ho : o ∉ vars)
      (h : p.getActualAggregator c vars o = .ok (some agg)) :
      Recombined prog p c (vars.map env) (output prog env agg.cmd)
  | tree {outs : List (List α)} {y : List α} (hk : p.coreAggregatorSpec.kind = .custom2Ary) (h : Joined prog p c outs y) :
      Recombined prog p c outs y
  | adjacent {outs : List (List α)} {y : List α} (hk : p.coreAggregatorSpec.kind = .adjLinesSeq)
      (h : Spliced (sequential prog c) outs y) : Recombined prog p c outs y

/-- Executing the parallelizer `p` for `c` with the given parts can give the output `y`. -/
def Executes (prog : ProgramsOn α) (p : Parallelizer) (c : CommandInvocationWithIOVars) (parts : List (List α))
    (y : List α) : Prop :=
  ∃ runs : List (List α × List α), parts = runs.map Prod.fst ∧ (∀ r ∈ runs, MapperRun prog p c r.1 r.2) ∧
    Recombined prog p c (runs.map Prod.snd) y

/-! The programs. -/

/-- `cat` concatenates its inputs. -/
def CatProgram (prog : ProgramsOn α) : Prop := ∀ ins, prog "cat" [] [] ins = ins.flatten

/-- The output on a concatenation is the concatenation of the outputs. -/
def LineWise (f : List α → List α) : Prop := ∀ x y, f (x ++ y) = f x ++ f y

/-- A flag or option with that name is given. -/
def Given (fl : List FlagOptionWithIOVar) (n : String) : Prop := ∃ x ∈ fl, x.getName = n

instance (fl : List FlagOptionWithIOVar) (n : String) : Decidable (Given fl n) := by unfold Given; infer_instance

/-- The argument of the last option with one of these names whose argument is a string: a later option overrides an
earlier one. -/
def argAmong (fl : List FlagOptionWithIOVar) (ns : List String) : Option String :=
  fl.reverse.findSome? fun
    | .optionVar _ m (.str s) => if m ∈ ns then some s else none
    | .optionIO m (.str s) => if m ∈ ns then some s else none
    | _ => none

/-- The argument of the last option with that name, if it is a string. -/
def argOf (fl : List FlagOptionWithIOVar) (n : String) : Option String := argAmong fl [n]

/-- The flags and options of some programs that the specifications of these programs are about, in the spellings that
the parser leaves in an invocation: every flag that is declared with more than one spelling is replaced by the first one
(C08), but some long spellings are declared on their own, such as `--after-context`, and letters in a cluster stay as
they are, such as `-y`. Not listed are the requests for a help or version text (C85); the flags whose arguments the data
files leave out (`-f`, `-s` and `-w` of uniq, `-f` of sed, `-s` and `--process-slot-var` of xargs); those that make the
output depend on the names of the input files (`-H`, `-Z`, `-r`, `-R`, `--exclude`, `--include` and the like of grep);
`--debug`; `-p`, `-P` and `--show-limits` of xargs; `--in-place` of sed; `-M` of cut, which is not in the manual; and
`-C` of tr, which stays as it is in a cluster. -/
def coveredNames : List (String × List String) :=
  [("grep", ["-E", "-F", "-G", "-P", "-i", "-y", "--no-ignore-case", "-v", "-w", "-x", "-c", "-L", "-l", "-o", "-q", "-s",
     "-b", "-h", "-n", "-T", "-u", "--no-group-separator", "-a", "-I", "--line-buffered", "-U", "-z", "-e", "--regexp", "-f",
     "--color", "--colour", "-m", "--max-count", "--label", "-A", "--after-context", "-B", "--before-context", "-C",
     "--context", "--group-separator", "--binary-files", "-D", "--devices", "-d", "--directories"]),
   ("sort", ["-b", "-d", "-f", "-g", "-i", "-M", "-h", "-n", "-R", "-r", "-V", "-c", "-C", "-m", "-s", "-u", "-z", "--sort",
     "--batch-size", "--compress-program", "-k", "-S", "-t", "-T", "--parallel"]),
   ("uniq", ["-c", "-d", "-D", "-i", "-u", "-z", "--all-repeated", "--skip-fields", "--group", "--skip-chars",
     "--check-chars"]),
   ("cut", ["-n", "--complement", "-s", "-z", "-b", "-c", "-d", "-f", "--output-delimiter"]),
   ("sed", ["-n", "-e", "--follow-symlinks", "--posix", "-E", "-r", "-s", "--sandbox", "-u", "-z", "-l", "--line-length"]),
   ("xargs", ["--null", "-o", "-r", "-t", "-x", "-a", "--delimiter", "-E", "-I", "-L", "-n"]),
   ("tr", ["-c", "-d", "-s", "-t"])]

/-- All flags and options are among those the specification of the program is about. -/
def Covered (cmd : String) (fl : List FlagOptionWithIOVar) : Prop :=
  ∃ q ∈ coveredNames, q.1 = cmd ∧ ∀ x ∈ fl, x.getName ∈ q.2

instance (cmd : String) (fl : List FlagOptionWithIOVar) : Decidable (Covered cmd fl) := by unfold Covered; infer_instance

/-- What the manual of grep leaves open here: which lines match, how a shown line is printed (with its number and
offset if asked for; `true` for a matching line), the name of the input, the group separator, how numbers are read. -/
structure GrepParameters where
  matching : List FlagOptionWithIOVar → List String → String → Bool
  print : List FlagOptionWithIOVar → Bool → Option Nat → Option Nat → String → List String
  label : String
  separator : List FlagOptionWithIOVar → List String
  number : String → Nat

namespace GrepParameters
variable (g : GrepParameters) (fl : List FlagOptionWithIOVar) (strs : List String)

/-- Lines of context before a match: `-B`, else `-C`, else none. -/
def before : Nat :=
  ((argAmong fl ["-B", "--before-context"]).or (argAmong fl ["-C", "--context"])).elim 0 g.number
/-- Lines of context after a match: `-A`, else `-C`, else none. -/
def after : Nat :=
  ((argAmong fl ["-A", "--after-context"]).or (argAmong fl ["-C", "--context"])).elim 0 g.number
/-- `-m` limits the number of matching lines. -/
def limit : Option Nat := (argAmong fl ["-m", "--max-count"]).map g.number

/-- Context is asked for, be it of no lines. -/
def context : Prop := ∃ n ∈ ["-A", "--after-context", "-B", "--before-context", "-C", "--context"], Given fl n

instance : Decidable (context fl) := by unfold context; infer_instance

/-- The names of the inputs with a match (`-l`) or without one (`-L`) are asked for: the last of these flags decides. -/
def listing : Option String := ((fl.map FlagOptionWithIOVar.getName).filter fun n => decide (n ∈ ["-l", "-L"])).getLast?

/-- Line number `k` (from 0) is selected: it matches and the limit is not reached before it. -/
def selected (x : Stream) (k : Nat) : Bool :=
  (x[k]?.elim false (g.matching fl strs)) &&
    (g.limit fl).elim true (fun m => decide (((x.take k).filter (g.matching fl strs)).length < m))

/-- Line `k` is shown: it is selected or in the context of a selected line. -/
def shown (x : Stream) (k : Nat) : Bool :=
  (List.range x.length).any fun j => g.selected fl strs x j && decide (k ≤ j + g.after fl ∧ j ≤ k + g.before fl)

/-- The offset of line `k` in bytes. -/
def offset (x : Stream) (k : Nat) : Nat := ((x.take k).map fun l => l.utf8ByteSize + 1).sum

/-- What is printed for line `k`: with context, a separator if it starts a new group; then the line. -/
def printed (x : Stream) (k : Nat) : List String :=
  if g.shown fl strs x k then
    (if context fl ∧ 0 < k ∧ g.shown fl strs x (k - 1) = false ∧
        (List.range k).any (fun j => g.shown fl strs x j) then g.separator fl else []) ++
      g.print fl (g.selected fl strs x k) (if Given fl "-n" then some (k + 1) else none)
        (if Given fl "-b" then some (offset x k) else none) (x[k]?.getD "")
  else []

/-- The output of grep on one input of newline-terminated lines (no `-z`). With `-m 0` grep stops before it reads anything, so
that there is no count. -/
def grep (x : Stream) : Stream :=
  let found := (List.range x.length).any (g.selected fl strs x)
  if Given fl "-q" then []
  else if listing fl = some "-L" then (if found then [] else [g.label])
  else if listing fl = some "-l" then (if found then [g.label] else [])
  else if Given fl "-c" then if g.limit fl = some 0 then [] else [toString (((List.range x.length).filter (g.selected fl strs x)).length)]
  else (List.range x.length).flatMap (g.printed fl strs x)

end GrepParameters

/-- `grep` behaves like its manual says, on one input. -/
def GrepProgram (prog : Programs) (g : GrepParameters) : Prop :=
  ∀ fl strs x, Covered "grep" fl → ¬ Given fl "-z" → prog "grep" fl strs [x] = g.grep fl strs x

/-- The parts fit the context options of grep: no line is shown because of a line in another part, and where a part shows lines after an earlier part
did and there are separators, the last line before the part and its first line are both shown. -/
def ContextFits (g : GrepParameters) (fl : List FlagOptionWithIOVar) (strs : List String) (parts : List Stream) : Prop :=
  ∀ pre part post, parts = pre ++ part :: post →
    (∀ k < part.length, g.shown fl strs parts.flatten (pre.flatten.length + k) = true → g.shown fl strs part k = true) ∧
    (g.separator fl ≠ [] → GrepParameters.context fl → (∃ k < part.length, g.shown fl strs part k = true) →
      (∃ q ∈ pre, ∃ k < q.length, g.shown fl strs q k = true) →
      g.shown fl strs part 0 = true ∧ g.shown fl strs parts.flatten (pre.flatten.length - 1) = true)

/-- The parts fit the numbering of lines: a line that is shown for its part or for the whole input is shown for both, and no line
comes before its part. -/
def NumbersFit (g : GrepParameters) (fl : List FlagOptionWithIOVar) (strs : List String) (parts : List Stream) : Prop :=
  ∀ pre part post, parts = pre ++ part :: post → ∀ k < part.length,
    (g.shown fl strs part k = true ∨ g.shown fl strs parts.flatten (pre.flatten.length + k) = true) →
    pre.flatten = [] ∧ g.shown fl strs part k = true ∧ g.shown fl strs parts.flatten k = true

/-- The options of sort that its manual lists as ordering options, with `-t`, and with `-s` and `-z`, which change the
order of lines that compare equal and what a line is. -/
def sortOrdering : List String :=
  ["-b", "-d", "-f", "-g", "-i", "-M", "-h", "-n", "-R", "-r", "--sort", "-V", "-k", "-t", "-s", "-z"]

/-- A total order on lines. -/
structure LineOrder (le : String → String → Prop) : Prop where
  total : ∀ a b, le a b ∨ le b a
  trans : ∀ a b c, le a b → le b c → le a c
  antisymm : ∀ a b, le a b → le b a → a = b

/-- `sort` behaves like its manual says: the order depends on the ordering options only; without `-c`, `-C`, `-u` and
`-z` the output consists of the lines of all inputs, ordered; with `-m` this holds if the inputs are ordered. -/
structure SortProgram (prog : Programs) (le : List FlagOptionWithIOVar → String → String → Prop) : Prop where
  ordering : ∀ fl fl', fl.filter (fun x => x.getName ∈ sortOrdering) = fl'.filter (fun x => x.getName ∈ sortOrdering) →
    le fl = le fl'
  sorts : ∀ fl ins, Covered "sort" fl → LineOrder (le fl) → ¬ Given fl "-c" → ¬ Given fl "-C" → ¬ Given fl "-u" → ¬ Given fl "-z" →
    (Given fl "-m" → ∀ s ∈ ins, s.Pairwise (le fl)) →
    (prog "sort" fl [] ins).Pairwise (le fl) ∧ (prog "sort" fl [] ins).Perm ins.flatten

/-- The groups of consecutive lines that compare equal to their predecessor. -/
def groups (same : String → String → Bool) : Stream → List (List String)
  | [] => []
  | l :: x => match groups same x with
    | (k :: g) :: gs => if same l k then (l :: k :: g) :: gs else [l] :: (k :: g) :: gs
    | gs => [l] :: gs

/-- Comparing equal is an equivalence. -/
structure SameLine (same : String → String → Bool) : Prop where
  refl : ∀ a, same a a = true
  symm : ∀ a b, same a b = true → same b a = true
  trans : ∀ a b c, same a b = true → same b c = true → same a c = true

/-- The lines of the output of `uniq` for a group: with `-u` only groups of one line are shown, with `-d` only
groups of more than one; of a shown group the first line. -/
def showGroup (fl : List FlagOptionWithIOVar) (g : List String) : List String :=
  if (Given fl "-u" ∧ 1 < g.length) ∨ (Given fl "-d" ∧ g.length ≤ 1) then [] else g.take 1

/-- The output of `uniq --group`: all lines, with an empty line between groups (the default), before each group, after
each group, or around all of them; of an empty input, nothing. -/
def separateGroups (method : String) (gs : List (List String)) : Stream :=
  if method = "prepend" then gs.flatMap ([""] ++ ·)
  else if method = "append" then gs.flatMap (· ++ [""])
  else if method = "both" then if gs.isEmpty then [] else gs.flatMap ([""] ++ ·) ++ [""]
  else (gs.intersperse [""]).flatten

/-- `uniq` behaves like its manual says, on one input, without `-c`, `-D`, `--all-repeated` and `-z`, and with `--group`
only without `-u` and `-d`, which it does not accept together. How lines are compared depends on the other options. -/
structure UniqProgram (prog : Programs) (same : List FlagOptionWithIOVar → String → String → Bool) : Prop where
  equivalence : ∀ fl, SameLine (same fl)
  output : ∀ fl x, Covered "uniq" fl → ¬ (∃ n ∈ ["-c", "-D", "--all-repeated", "--group", "-z"], Given fl n) →
    prog "uniq" fl [] [x] = (groups (same fl) x).flatMap (showGroup fl)
  group : ∀ fl x, Covered "uniq" fl → Given fl "--group" → ¬ (∃ n ∈ ["-c", "-D", "--all-repeated", "-u", "-d", "-z"], Given fl n) →
    prog "uniq" fl [] [x] = separateGroups ((argOf fl "--group").getD "separate") (groups (same fl) x)

end PashAnn.Spec
