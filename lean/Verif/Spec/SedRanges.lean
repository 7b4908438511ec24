import Verif.Spec.Sed

/-!
Ranges of lines in `sed` scripts (GNU sed 4.8, "Selecting lines by ranges"), for property C99: scripts `FIRST,LAST COMMAND` with one of
the commands `p`, `d`, `s` and `y`, which need neither line numbers nor the hold space. `FIRST` and `LAST` are line numbers, `$` or
`/REGEX/`. "An address range matches lines starting from where the first address matches, and continues until the second address matches
(inclusively). If the second address is a regexp, then checking for the ending match will start with the line following the line which
matched the first address. If the second address is a number less than or equal to the line matching the first address, then only the one
line is matched."
-/

namespace PashAnn.Spec

/-- `FIRST,LAST COMMAND` or `FIRST,LAST!COMMAND`. -/
structure SedRange where
  first : SedAddress
  last : SedAddress
  negated : Bool
  verb : SedVerb
deriving DecidableEq, Repr

/-- The commands that are read after a range. -/
def SedVerb.ofLine : SedVerb → Bool
  | .print | .delete | .subst _ _ _ _ | .translit _ _ => true
  | _ => false

/-- The script is one command with a range. -/
def readSedRange (script : String) : Option SedRange :=
  match sedAddress script.toList with
  | some (some a, ',' :: cs) => match sedAddress (sedBlanks cs) with
    | some (some b, cs) =>
        let (negated, cs) := match sedBlanks cs with
          | '!' :: cs => (true, sedBlanks cs)
          | cs => (false, cs)
        match sedVerb cs with
        | some (v, []) => if v.ofLine then some ⟨a, b, negated, v⟩ else none
        | _ => none
    | _ => none
  | _ => none

/-- A line of the input: its number, whether it is the last one, and its text. -/
structure SedPlace where
  number : Nat
  isLast : Bool
  text : String

/-- The lines of the input, after so many others. -/
def sedPlaces : Nat → List String → List SedPlace
  | _, [] => []
  | n, l :: ls => ⟨n + 1, ls.isEmpty, l⟩ :: sedPlaces (n + 1) ls

/-- The first address matches the line. -/
def SedAddress.begins (rx : SedRegexes) (p : SedPlace) : SedAddress → Bool
  | .number n => p.number == n
  | .last => p.isLast
  | .regex r => rx.hit r p.text

/-- The second address matches a line after the first one. -/
def SedAddress.ends (rx : SedRegexes) (p : SedPlace) : SedAddress → Bool
  | .number n => n ≤ p.number
  | .last => p.isLast
  | .regex r => rx.hit r p.text

/-- The range is no more than the line at which it begins. -/
def SedAddress.endsAtOnce (p : SedPlace) : SedAddress → Bool
  | .number n => n ≤ p.number
  | _ => false

/-- Which lines are in a range; the flag says whether a range is open before the first one. -/
def inRange (rx : SedRegexes) (first final : SedAddress) : Bool → List SedPlace → List Bool
  | _, [] => []
  | false, p :: ps =>
      if first.begins rx p then true :: inRange rx first final (!final.endsAtOnce p) ps else false :: inRange rx first final false ps
  | true, p :: ps => true :: inRange rx first final (!final.ends rx p) ps

/-- The lines that are in ranges. -/
def SedRange.marks (rx : SedRegexes) (r : SedRange) (x : List String) : List Bool :=
  inRange rx r.first r.last false (sedPlaces 0 x)

/-- What `sed` prints: each line alone, with the command for the lines in a range, or for the others. -/
def runSedRange (rx : SedRegexes) (quiet : Bool) (r : SedRange) (x : Stream) : Stream :=
  (x.zip (r.marks rx x)).flatMap fun e => runSed rx quiet (if e.2 = r.negated then [] else [⟨none, false, r.verb⟩]) [e.1]

/-- `sed` behaves like its manual says, on one input, for scripts with one range. -/
structure SedRangeManual (prog : Programs) (rx : List FlagOptionWithIOVar → SedRegexes) : Prop where
  lines : ∀ fl script r x, Covered "sed" fl → ¬ Given fl "-z" → ¬ Given fl "--posix" → readSedRange script = some r →
    prog "sed" fl [script] [x] = runSedRange (rx fl) (decide (Given fl "-n")) r x

/-- Whether a range between two regular expressions is open after these lines, if one is or is not open before. -/
def openAfter (starts ends : String → Bool) : Bool → List String → Bool
  | isOpen, [] => isOpen
  | false, l :: ls => openAfter starts ends (starts l) ls
  | true, l :: ls => openAfter starts ends (!ends l) ls

end PashAnn.Spec
