import Verif.Spec.Programs

/-!
`sed` after its manual (GNU sed 4.8), for property C99: a reader for scripts and what a script does. Read are scripts of
commands separated by `;`, each with at most one address (a line number, `$` or `/REGEX/`), which `!` negates. Not read are
ranges of lines (for which see `Spec/SedRanges.lean`), labels, blocks, files, the commands that need them, and commands on several lines.
-/

namespace PashAnn.Spec

inductive SedAddress where
  | number (n : Nat)
  | last
  | regex (r : String)
deriving DecidableEq, Repr

inductive SedVerb where
  /-- `p`: prints the pattern space. -/
  | print
  /-- `d`: ends the cycle without printing. -/
  | delete
  /-- `q`: ends the run after printing. -/
  | quit
  /-- `=`: prints the line number. -/
  | lineNumber
  /-- `s/R/T/`, with `g` and `p`. -/
  | subst (r t : String) (all print : Bool)
  /-- `y/A/B/`. -/
  | translit (a b : List Char)
  /-- `h`, `H`: the pattern space to the hold space, or added to it after a newline. -/
  | hold
  | holdAppend
  /-- `g`, `G`: the hold space to the pattern space, or added to it after a newline. -/
  | get
  | getAppend
  /-- `x`: exchanges the two spaces. -/
  | exchange
  /-- `n`: prints the pattern space and reads the next line, if there is one; else ends the run. -/
  | next
  /-- `N`: adds the next line to the pattern space after a newline, if there is one; else ends the run. -/
  | nextAppend
  /-- `b`: ends the cycle. -/
  | branch
deriving DecidableEq, Repr

structure SedCommand where
  address : Option SedAddress
  negated : Bool
  verb : SedVerb
deriving DecidableEq, Repr

/-! Reading scripts. -/

/-- The text up to the delimiter, and the rest after it. A backslash keeps the next character from being special; an
escaped delimiter and newlines are not read. -/
def sedField (d : Char) : List Char → Option (List Char × List Char)
  | [] => none
  | '\\' :: c :: cs =>
      if c = d ∨ c = '\n' then none else (sedField d cs).map fun r => ('\\' :: c :: r.1, r.2)
  | c :: cs =>
      if c = d then some ([], cs)
      else if c = '\n' then none
      else (sedField d cs).map fun r => (c :: r.1, r.2)

/-- A field that must not be empty: the empty regular expression has a meaning of its own. -/
def sedRegex (d : Char) (cs : List Char) : Option (String × List Char) :=
  match sedField d cs with
  | some (r :: rs, rest) => some (String.ofList (r :: rs), rest)
  | _ => none

/-- The number that digits stand for. -/
def sedNumber (ds : List Char) : Nat := ds.foldl (fun n c => 10 * n + (c.toNat - '0'.toNat)) 0

/-- An address, if there is one. -/
def sedAddress : List Char → Option (Option SedAddress × List Char)
  | [] => some (none, [])
  | c :: cs =>
      if c = '$' then some (some .last, cs)
      else if c = '/' then (sedRegex '/' cs).map fun r => (some (.regex r.1), r.2)
      else if c.isDigit then
        let n := sedNumber ((c :: cs).takeWhile Char.isDigit)
        if n = 0 then none else some (some (.number n), (c :: cs).dropWhile Char.isDigit)
      else some (none, c :: cs)

/-- The flags after a substitution. -/
def sedFlags : List Char → Bool × Bool × List Char
  | 'g' :: 'p' :: cs => (true, true, cs)
  | 'p' :: 'g' :: cs => (true, true, cs)
  | 'g' :: cs => (true, false, cs)
  | 'p' :: cs => (false, true, cs)
  | cs => (false, false, cs)

/-- A command after its address. -/
def sedVerb : List Char → Option (SedVerb × List Char)
  | 'p' :: cs => some (.print, cs)
  | 'd' :: cs => some (.delete, cs)
  | 'q' :: cs => some (.quit, cs)
  | '=' :: cs => some (.lineNumber, cs)
  | 'h' :: cs => some (.hold, cs)
  | 'H' :: cs => some (.holdAppend, cs)
  | 'g' :: cs => some (.get, cs)
  | 'G' :: cs => some (.getAppend, cs)
  | 'x' :: cs => some (.exchange, cs)
  | 'n' :: cs => some (.next, cs)
  | 'N' :: cs => some (.nextAppend, cs)
  | 'b' :: cs => some (.branch, cs)
  | 's' :: d :: cs =>
      if d = '\\' ∨ d = '\n' then none
      else match sedRegex d cs with
        | none => none
        | some (r, cs) => match sedField d cs with
          | none => none
          | some (t, cs) => some (.subst r (String.ofList t) (sedFlags cs).1 (sedFlags cs).2.1, (sedFlags cs).2.2)
  | 'y' :: d :: cs =>
      if d = '\\' ∨ d = '\n' then none
      else match sedField d cs with
        | none => none
        | some (a, cs) => match sedField d cs with
          | none => none
          | some (b, cs) => if a.length = b.length ∧ '\\' ∉ a ∧ '\\' ∉ b then some (.translit a b, cs) else none
  | _ => none

/-- Blanks. -/
def sedBlanks (cs : List Char) : List Char := cs.dropWhile (· == ' ')

/-- The address, the negation and the command. -/
def sedCommand (cs : List Char) : Option (SedCommand × List Char) :=
  match sedAddress cs with
  | none => none
  | some (a, cs) => match sedBlanks cs with
    | '!' :: cs => (sedVerb (sedBlanks cs)).map fun r => (⟨a, true, r.1⟩, r.2)
    | cs => (sedVerb cs).map fun r => (⟨a, false, r.1⟩, r.2)

/-- The commands of a script; the number bounds the number of commands. -/
def sedScript : Nat → List Char → Option (List SedCommand)
  | 0, cs => if cs = [] then some [] else none
  | n + 1, cs =>
      match cs.dropWhile (fun c => c == ' ' || c == ';') with
      | [] => some []
      | c :: cs => match sedCommand (c :: cs) with
        | none => none
        | some (cmd, rest) => match sedBlanks rest with
          | [] => some [cmd]
          | ';' :: rest => (sedScript n rest).map (cmd :: ·)
          | _ => none

/-- The commands that a script text stands for. -/
def readSed (script : String) : Option (List SedCommand) := sedScript script.length script.toList

/-! What scripts do. -/

/-- What is left open: which lines a regular expression matches, and what a substitution makes of a line that it
matches. -/
structure SedRegexes where
  hit : String → String → Bool
  replace : String → String → Bool → String → String

/-- The pattern space, the hold space, the number of the line read last, and the lines still to be read. -/
structure SedState where
  pattern : String
  holding : String
  number : Nat
  rest : List String
deriving DecidableEq, Repr

/-- How a cycle ends: as usual, without printing, or with the end of the run after printing. -/
inductive SedEnd where
  | usual
  | silent
  | stop
deriving DecidableEq, Repr

/-- The lines of a text. -/
def sedLines : List Char → List (List Char)
  | [] => [[]]
  | c :: cs =>
      if c = '\n' then [] :: sedLines cs
      else match sedLines cs with
        | [] => [[c]]
        | l :: ls => (c :: l) :: ls

/-- What printing a space gives. -/
def sedShow (s : String) : List String := (sedLines s.toList).map String.ofList

/-- The command applies in that state. -/
def SedCommand.applies (rx : SedRegexes) (c : SedCommand) (s : SedState) : Bool :=
  c.negated != match c.address with
    | none => true
    | some (.number n) => s.number == n
    | some .last => s.rest.isEmpty
    | some (.regex r) => rx.hit r s.pattern

/-- The rest of a cycle: what is printed, the state after it, and how it ends. -/
def sedCycle (rx : SedRegexes) (quiet : Bool) : List SedCommand → SedState → List String × SedState × SedEnd
  | [], s => ([], s, .usual)
  | c :: cs, s =>
      let after (out : List String) (s : SedState) :=
        let r := sedCycle rx quiet cs s
        (out ++ r.1, r.2)
      if ¬ c.applies rx s then sedCycle rx quiet cs s
      else match c.verb with
        | .print => after (sedShow s.pattern) s
        | .delete => ([], s, .silent)
        | .quit => ([], s, .stop)
        | .lineNumber => after [toString s.number] s
        | .subst r t all print =>
            if rx.hit r s.pattern then
              let p := rx.replace r t all s.pattern
              after (if print then sedShow p else []) { s with pattern := p }
            else sedCycle rx quiet cs s
        | .translit a b =>
            after [] { s with pattern := String.ofList (s.pattern.toList.map fun c => ((a.zip b).lookup c).getD c) }
        | .hold => after [] { s with holding := s.pattern }
        | .holdAppend => after [] { s with holding := s.holding ++ "\n" ++ s.pattern }
        | .get => after [] { s with pattern := s.holding }
        | .getAppend => after [] { s with pattern := s.pattern ++ "\n" ++ s.holding }
        | .exchange => after [] { s with pattern := s.holding, holding := s.pattern }
        | .next => match s.rest with
            | [] => ([], s, .stop)
            | l :: ls => after (if quiet then [] else sedShow s.pattern)
                { s with pattern := l, number := s.number + 1, rest := ls }
        | .nextAppend => match s.rest with
            | [] => ([], s, .stop)
            | l :: ls => after [] { s with pattern := s.pattern ++ "\n" ++ l, number := s.number + 1, rest := ls }
        | .branch => ([], s, .usual)

/-- The cycles: the first argument bounds their number. -/
def sedCycles (rx : SedRegexes) (quiet : Bool) (cmds : List SedCommand) : Nat → String → Nat → List String → List String
  | 0, _, _, _ => []
  | _ + 1, _, _, [] => []
  | n + 1, h, k, l :: ls =>
      let r := sedCycle rx quiet cmds ⟨l, h, k + 1, ls⟩
      r.1 ++ (if quiet ∨ r.2.2 = .silent then [] else sedShow r.2.1.pattern) ++
        (if r.2.2 = .stop then [] else sedCycles rx quiet cmds n r.2.1.holding r.2.1.number r.2.1.rest)

/-- What `sed` prints for an input. Every cycle reads a line. -/
def runSed (rx : SedRegexes) (quiet : Bool) (cmds : List SedCommand) (x : Stream) : Stream :=
  sedCycles rx quiet cmds x.length "" 0 x

/-- `sed` behaves like its manual says, on one input, for the scripts that are read. -/
structure SedManual (prog : Programs) (rx : List FlagOptionWithIOVar → SedRegexes) : Prop where
  lines : ∀ fl script cmds x, Covered "sed" fl → ¬ Given fl "-z" → ¬ Given fl "--posix" → readSed script = some cmds →
    prog "sed" fl [script] [x] = runSed (rx fl) (decide (Given fl "-n")) cmds x

/-- The script treats every line alone: it looks neither at line numbers nor for the last line, keeps nothing in the hold
space, reads no further lines and does not end the run. -/
def SedLocal (cmds : List SedCommand) : Prop :=
  ∀ c ∈ cmds, (∀ n, c.address ≠ some (.number n)) ∧ c.address ≠ some .last ∧
    c.verb ∉ [.quit, .lineNumber, .hold, .holdAppend, .exchange, .next, .nextAppend]

end PashAnn.Spec
