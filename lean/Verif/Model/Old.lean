import Verif.Model.Basic

/-!
The annotation language that the library replaced, as described in pash_annotations/old_annotations/README.md: what a file says about
an invocation. The interpreter of the language is not in the repository. Here the predicates are read on parsed invocations, so
that an option that is given in any of its spellings counts under its main name.
-/

namespace PashAnn

/-- The classes (old_annotations/README.md:11-36). The files also write `side-effects` and `non-pure` for the last one. -/
inductive OldClass where
  | stateless | parallelizablePure | pureOnly | sideEffectful
deriving DecidableEq, Repr

/-- The predicates (old_annotations/README.md:148-177): `exists`, `!exists`, `val_opt_eq` and `value`, `len_args_eq`, `and`, `default`. -/
inductive OldPredicate where
  | given (names : List String)
  | notGiven (names : List String)
  | value (names : List String) (v : String)
  | arguments (n : Nat)
  | both (p q : OldPredicate)
  | otherwise
deriving Repr

/-- An input or output (old_annotations/README.md:155-167): a standard stream, an argument that is no option, or those from one
position up to another, where a missing position is the first or the last. -/
inductive OldStream where
  | stdin
  | stdout
  | arg (n : Nat)
  | args (start stop : Option Nat)
deriving Repr

/-- The streams of a case: `inputs`, where they are given as a list or under `standard`, those under `configuration`
(old_annotations/set_diff.json), `outputs`, and whether the case or its file has the option `stdin-hyphen`. A case that names no
streams (old_annotations/grep.json:31-40) gets empty lists. -/
structure OldStreams where
  inputs : List OldStream
  configuration : List OldStream
  outputs : List OldStream
  hyphen : Bool
deriving Repr

/-- A case: the predicate, the class, the aggregator with its options, the mapper with its number of outputs, whether the
command is commutative (old_annotations/sort.json, old_annotations/bigrams_aux.json), and the streams. -/
structure OldCase where
  predicate : OldPredicate
  cls : OldClass
  aggregator : Option (String × List String)
  mapper : Option (String × Nat)
  commutative : Bool
  streams : OldStreams
deriving Repr

/-- A file (old_annotations/README.md:50-69). -/
structure OldAnnotation where
  command : String
  cases : List OldCase
deriving Repr

/-- Whether a predicate holds of an invocation (old_annotations/README.md:131-135). -/
def OldPredicate.holds (inv : CommandInvocationInitial) : OldPredicate → Bool
  | .given names => names.any fun n => inv.flagOptionList.any fun f => f.getName == n
  | .notGiven names => !(names.any fun n => inv.flagOptionList.any fun f => f.getName == n)
  | .value names v => names.any fun n => inv.flagOptionList.any fun f => decide (f = .option n v)
  | .arguments n => inv.operandList.length == n
  | .both p q => p.holds inv && q.holds inv
  | .otherwise => true

/-- The files that an input or output stands for, with the given access. The argument `-` is standard input if the case or the file
has the option `stdin-hyphen` (old_annotations/README.md:136). -/
def OldStream.files (inv : CommandInvocationInitial) (hyphen : Bool) (a : AccessKind) : OldStream → List FileWithIO
  | .stdin => [.std .stdin a]
  | .stdout => [.std .stdout a]
  | .arg n => ((inv.operandList.drop n).take 1).map (name hyphen)
  | .args start stop => ((inv.operandList.take (stop.getD inv.operandList.length)).drop (start.getD 0)).map (name hyphen)
where
  /-- The file that an argument names. -/
  name (hyphen : Bool) (s : String) : FileWithIO := if hyphen && s == "-" then .std .stdin a else .file s a

/-- The files that a case uses with some access: its inputs are read as streams, its configuration as a whole, and its outputs are
written as streams (old_annotations/README.md:128-167). -/
def OldStreams.files (s : OldStreams) (inv : CommandInvocationInitial) (a : AccessKind) : List FileWithIO :=
  match a with
  | .streamInput => s.inputs.flatMap (·.files inv s.hyphen a)
  | .configInput => s.configuration.flatMap (·.files inv s.hyphen a)
  | .streamOutput => s.outputs.flatMap (·.files inv s.hyphen a)
  | _ => []

/-- The first case whose predicate holds (old_annotations/README.md:45-48, 131-135). -/
def OldAnnotation.case (a : OldAnnotation) (inv : CommandInvocationInitial) : Option OldCase :=
  a.cases.find? fun c => c.predicate.holds inv

end PashAnn
