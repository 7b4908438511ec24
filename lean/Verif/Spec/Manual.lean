import Verif.Spec.Grammar

/-!
The options of the annotated programs as their manuals list them (GNU coreutils, grep, sed, gawk, diffutils and
findutils, and util-linux for `col`), and how a plainly written command line is read according to them: options before
operands, one option per word, option arguments in a word of their own. Written from the manuals, not from the shipped
databases. Options that the databases do not mention are listed where they are in common use.
-/

namespace PashAnn.Spec

/-- What the manual says about the argument of an option: there is none, the next word is it (`-k KEYDEF`), or it can
only be attached to the option (`--color[=WHEN]`), so that the next word is never it. -/
inductive Argument where
  | none
  | nextWord
  | attached
deriving DecidableEq, Repr

/-- An entry of a manual: the spellings of one option, each with its argument. -/
abbrev ManualEntry := List (String × Argument)

/-- Spellings without argument. -/
def plain (l : List String) : ManualEntry := l.map (·, .none)
/-- Spellings whose argument is the next word. -/
def taking (l : List String) : ManualEntry := l.map (·, .nextWord)
/-- Spellings with an optional argument. -/
def optional (l : List String) : ManualEntry := l.map (·, .attached)

/-- The manuals. -/
def manuals : List (String × List ManualEntry) :=
  [("awk", [taking ["-f", "--file"], taking ["-F", "--field-separator"], taking ["-v", "--assign"],
      plain ["-b", "--characters-as-bytes"], plain ["-c", "--traditional"], plain ["-C", "--copyright"],
      optional ["-d", "--dump-variables"], optional ["-D", "--debug"], taking ["-e", "--source"],
      taking ["-E", "--exec"], plain ["-g", "--gen-pot"], plain ["-h", "--help"], taking ["-i", "--include"],
      taking ["-l", "--load"], optional ["-L", "--lint"], plain ["-M", "--bignum"], plain ["-n", "--non-decimal-data"],
      plain ["-N", "--use-lc-numeric"], optional ["-o", "--pretty-print"], plain ["-O", "--optimize"],
      optional ["-p", "--profile"], plain ["-P", "--posix"], plain ["-r", "--re-interval"], plain ["-S", "--sandbox"],
      plain ["-t", "--lint-old"], plain ["-V", "--version"]]),
   ("cat", [plain ["-A", "--show-all"], plain ["-b", "--number-nonblank"], plain ["-e"], plain ["-E", "--show-ends"],
      plain ["-n", "--number"], plain ["-s", "--squeeze-blank"], plain ["-t"], plain ["-T", "--show-tabs"], plain ["-u"],
      plain ["-v", "--show-nonprinting"], plain ["--help"], plain ["--version"]]),
   ("col", [plain ["-b", "--no-backspaces"], plain ["-f", "--fine"], plain ["-h", "--tabs"], taking ["-l", "--lines"],
      plain ["-p", "--pass"], plain ["-x", "--spaces"], plain ["-V", "--version"], plain ["-H", "--help"]]),
   ("comm", [plain ["-1"], plain ["-2"], plain ["-3"], plain ["--check-order"], plain ["--nocheck-order"],
      taking ["--output-delimiter"], plain ["--total"], plain ["-z", "--zero-terminated"], plain ["--help"],
      plain ["--version"]]),
   ("cut", [taking ["-b", "--bytes"], taking ["-c", "--characters"], taking ["-d", "--delimiter"],
      taking ["-f", "--fields"], plain ["-n"], plain ["--complement"], plain ["-s", "--only-delimited"],
      taking ["--output-delimiter"], plain ["-z", "--zero-terminated"], plain ["--help"], plain ["--version"]]),
   ("diff", [plain ["--normal"], plain ["-q", "--brief"], plain ["-s", "--report-identical-files"],
      [("-c", .none), ("-C", .nextWord), ("--context", .attached)],
      [("-u", .none), ("-U", .nextWord), ("--unified", .attached)],
      plain ["-e", "--ed"], plain ["-n", "--rcs"], plain ["-y", "--side-by-side"], taking ["-W", "--width"],
      plain ["--left-column"], plain ["--suppress-common-lines"], plain ["-p", "--show-c-function"],
      taking ["-F", "--show-function-line"], taking ["--label"], plain ["-t", "--expand-tabs"],
      plain ["-T", "--initial-tab"], taking ["--tabsize"], plain ["--suppress-blank-empty"], plain ["-l", "--paginate"],
      plain ["-r", "--recursive"], plain ["--no-dereference"], plain ["-N", "--new-file"],
      plain ["--unidirectional-new-file"], plain ["--ignore-file-name-case"], plain ["--no-ignore-file-name-case"],
      taking ["-x", "--exclude"], taking ["-X", "--exclude-from"], taking ["-S", "--starting-file"],
      taking ["--from-file"], taking ["--to-file"], plain ["-i", "--ignore-case"], plain ["-E", "--ignore-tab-expansion"],
      plain ["-Z", "--ignore-trailing-space"], plain ["-b", "--ignore-space-change"], plain ["-w", "--ignore-all-space"],
      plain ["-B", "--ignore-blank-lines"], taking ["-I", "--ignore-matching-lines"], plain ["-a", "--text"],
      plain ["--strip-trailing-cr"], taking ["-D", "--ifdef"], taking ["--line-format"], plain ["-d", "--minimal"],
      taking ["--horizon-lines"], plain ["--speed-large-files"], optional ["--color"], taking ["--palette"],
      plain ["--help"], plain ["-v", "--version"]]),
   ("grep", [plain ["--help"], plain ["-V", "--version"], plain ["-E", "--extended-regexp"],
      plain ["-F", "--fixed-strings"], plain ["-G", "--basic-regexp"], plain ["-P", "--perl-regexp"],
      taking ["-e", "--regexp"], taking ["-f", "--file"], plain ["-i", "-y", "--ignore-case"],
      plain ["--no-ignore-case"], plain ["-v", "--invert-match"], plain ["-w", "--word-regexp"],
      plain ["-x", "--line-regexp"], plain ["-c", "--count"], optional ["--color", "--colour"],
      plain ["-L", "--files-without-match"], plain ["-l", "--files-with-matches"], taking ["-m", "--max-count"],
      plain ["-o", "--only-matching"], plain ["-q", "--quiet", "--silent"], plain ["-s", "--no-messages"],
      plain ["-b", "--byte-offset"], plain ["-H", "--with-filename"], plain ["-h", "--no-filename"], taking ["--label"],
      plain ["-n", "--line-number"], plain ["-T", "--initial-tab"], plain ["-u", "--unix-byte-offsets"],
      plain ["-Z", "--null"], taking ["-A", "--after-context"], taking ["-B", "--before-context"],
      taking ["-C", "--context"], taking ["--group-separator"], plain ["--no-group-separator"], plain ["-a", "--text"],
      taking ["--binary-files"], taking ["-D", "--devices"], taking ["-d", "--directories"], taking ["--exclude"],
      taking ["--exclude-from"], taking ["--exclude-dir"], plain ["-I"], taking ["--include"],
      plain ["-r", "--recursive"], plain ["-R", "--dereference-recursive"], plain ["--line-buffered"],
      plain ["-U", "--binary"], plain ["-z", "--null-data"]]),
   ("head", [taking ["-c", "--bytes"], taking ["-n", "--lines"], plain ["-q", "--quiet", "--silent"],
      plain ["-v", "--verbose"], plain ["-z", "--zero-terminated"], plain ["--help"], plain ["--version"]]),
   ("mkfifo", [taking ["-m", "--mode"], plain ["-Z"], optional ["--context"], plain ["--help"], plain ["--version"]]),
   ("mv", [[("-b", .none), ("--backup", .attached)], plain ["-f", "--force"], plain ["-i", "--interactive"],
      plain ["-n", "--no-clobber"], plain ["--strip-trailing-slashes"], taking ["-S", "--suffix"],
      taking ["-t", "--target-directory"], plain ["-T", "--no-target-directory"], plain ["-u", "--update"],
      plain ["-v", "--verbose"], plain ["-Z", "--context"], plain ["--help"], plain ["--version"]]),
   ("rm", [plain ["-f", "--force"], plain ["-i"], plain ["-I"], optional ["--interactive"], plain ["--one-file-system"],
      plain ["--no-preserve-root"], optional ["--preserve-root"], plain ["-r", "-R", "--recursive"], plain ["-d", "--dir"],
      plain ["-v", "--verbose"], plain ["--help"], plain ["--version"]]),
   ("sed", [plain ["-n", "--quiet", "--silent"], plain ["--debug"], taking ["-e", "--expression"],
      taking ["-f", "--file"], plain ["--follow-symlinks"], optional ["-i", "--in-place"], taking ["-l", "--line-length"],
      plain ["--posix"], plain ["-E", "-r", "--regexp-extended"], plain ["-s", "--separate"], plain ["--sandbox"],
      plain ["-u", "--unbuffered"], plain ["-z", "--null-data"], plain ["--help"], plain ["--version"]]),
   ("seq", [taking ["-f", "--format"], taking ["-s", "--separator"], plain ["-w", "--equal-width"], plain ["--help"],
      plain ["--version"]]),
   ("sort", [plain ["-b", "--ignore-leading-blanks"], plain ["-d", "--dictionary-order"], plain ["-f", "--ignore-case"],
      plain ["-g", "--general-numeric-sort"], plain ["-i", "--ignore-nonprinting"], plain ["-M", "--month-sort"],
      plain ["-h", "--human-numeric-sort"], plain ["-n", "--numeric-sort"], plain ["-R", "--random-sort"],
      taking ["--random-source"], plain ["-r", "--reverse"], taking ["--sort"], plain ["-V", "--version-sort"],
      taking ["--batch-size"], [("-c", .none), ("--check", .attached)], plain ["-C"], taking ["--compress-program"],
      plain ["--debug"], taking ["--files0-from"], taking ["-k", "--key"], plain ["-m", "--merge"],
      taking ["-o", "--output"], plain ["-s", "--stable"], taking ["-S", "--buffer-size"],
      taking ["-t", "--field-separator"], taking ["-T", "--temporary-directory"], taking ["--parallel"],
      plain ["-u", "--unique"], plain ["-z", "--zero-terminated"], plain ["--help"], plain ["--version"]]),
   ("tail", [taking ["-c", "--bytes"], [("-f", .none), ("--follow", .attached)], plain ["-F"],
      taking ["-n", "--lines"], taking ["--max-unchanged-stats"], taking ["--pid"], plain ["-q", "--quiet", "--silent"],
      plain ["--retry"], taking ["-s", "--sleep-interval"], plain ["-v", "--verbose"], plain ["-z", "--zero-terminated"],
      plain ["--help"], plain ["--version"]]),
   ("tee", [plain ["-a", "--append"], plain ["-i", "--ignore-interrupts"], plain ["-p"], optional ["--output-error"],
      plain ["--help"], plain ["--version"]]),
   ("tr", [plain ["-c", "-C", "--complement"], plain ["-d", "--delete"], plain ["-s", "--squeeze-repeats"],
      plain ["-t", "--truncate-set1"], plain ["--help"], plain ["--version"]]),
   ("uniq", [plain ["-c", "--count"], plain ["-d", "--repeated"], plain ["-D"], optional ["--all-repeated"],
      taking ["-f", "--skip-fields"], optional ["--group"], plain ["-i", "--ignore-case"], taking ["-s", "--skip-chars"],
      plain ["-u", "--unique"], plain ["-z", "--zero-terminated"], taking ["-w", "--check-chars"], plain ["--help"],
      plain ["--version"]]),
   ("wc", [plain ["-c", "--bytes"], plain ["-m", "--chars"], plain ["-l", "--lines"], taking ["--files0-from"],
      plain ["-L", "--max-line-length"], plain ["-w", "--words"], plain ["--help"], plain ["--version"]]),
   ("xargs", [plain ["-0", "--null"], taking ["-a", "--arg-file"], taking ["-d", "--delimiter"], taking ["-E"],
      optional ["-e", "--eof"], taking ["-I"], optional ["-i", "--replace"], taking ["-L"], optional ["-l", "--max-lines"],
      taking ["-n", "--max-args"], plain ["-o", "--open-tty"], taking ["-P", "--max-procs"], plain ["-p", "--interactive"],
      taking ["--process-slot-var"], plain ["-r", "--no-run-if-empty"], taking ["-s", "--max-chars"],
      plain ["--show-limits"], plain ["-t", "--verbose"], plain ["-x", "--exit"], plain ["--help"], plain ["--version"]])]

/-- The manual lists the spelling with that kind of argument. -/
def Lists (page : List ManualEntry) (w : String) (a : Argument) : Prop := ∃ e ∈ page, (w, a) ∈ e

/-- The manual lists both as spellings of one option. -/
def ManualSynonyms (page : List ManualEntry) (w w' : String) : Prop :=
  ∃ e ∈ page, (∃ a, (w, a) ∈ e) ∧ ∃ a, (w', a) ∈ e

/-- A word that the programs take for an operand: it does not begin with a dash, or it is a single dash. -/
def OperandWord (w : String) : Prop := w = "-" ∨ w.toList.head? ≠ some '-'

/-- `ReadByManual page words flags operands`: how a plainly written command line is read. Options are given with the
spelling used. -/
inductive ReadByManual (page : List ManualEntry) : List String → List FlagOption → List String → Prop
  | operands {ws} : (∀ w ∈ ws, OperandWord w) → ReadByManual page ws [] ws
  | flag {w a ws fs ops} : Lists page w a → a ≠ .nextWord → ReadByManual page ws fs ops →
      ReadByManual page (w :: ws) (.flag w :: fs) ops
  | option {w arg ws fs ops} : Lists page w .nextWord → ReadByManual page ws fs ops →
      ReadByManual page (w :: arg :: ws) (.option w arg :: fs) ops

/-- Spellings after which the next word is wrongly taken as an argument. -/
def swallowing : List (String × List String) :=
  [("diff", ["-c", "--context", "-u", "--unified", "--color"]), ("grep", ["--color", "--colour"]),
   ("mkfifo", ["--context"]), ("rm", ["--interactive", "--preserve-root"]), ("sed", ["--in-place"]),
   ("tee", ["--output-error"]), ("uniq", ["--all-repeated", "--group"]),
   ("xargs", ["-e", "--eof", "-i", "--replace", "-l", "--max-lines"])]

/-- Spellings after which the argument is wrongly taken as the next flag, option or operand. -/
def leaving : List (String × List String) :=
  [("awk", ["-F", "--field-separator", "-e", "--source", "-E", "--exec", "-i", "--include", "-l", "--load"]),
   ("col", ["-l", "--lines"]), ("mkfifo", ["-m"]), ("sed", ["-e", "--expression", "-f", "--file"]),
   ("tail", ["-c", "--bytes", "-n", "--lines", "-s"]), ("xargs", ["-s", "--max-chars", "--process-slot-var"])]

/-- Spellings that are not known at all. -/
def unknown : List (String × List String) :=
  [("awk", ["-v", "--assign", "-o"]), ("sed", ["-i"]), ("tail", ["-F"]), ("tr", ["--truncate-set1"]),
   ("uniq", ["-f", "-s", "-w"]), ("xargs", ["-0"])]

/-- Spellings that are read as options of their own, not as what the manual says they are another spelling of. -/
def apart : List (String × List String) :=
  [("grep", ["--regexp", "--max-count", "--after-context", "--before-context", "--context", "--devices", "--directories"]),
   ("sed", ["--line-length"])]

/-- The spelling of `awk --pretty-print` that is written down in its place, `-ofile`, is not one of the manual. -/
def misnamed : List (String × List String) := [("awk", ["--pretty-print"])]

/-- The command and spelling are in the list. -/
def InList (l : List (String × List String)) (name w : String) : Prop := ∃ p ∈ l, p.1 = name ∧ w ∈ p.2

instance (l : List (String × List String)) (name w : String) : Decidable (InList l name w) := by
  unfold InList; infer_instance

/-- The command and spelling are an exception. -/
def Exceptional (name w : String) : Prop :=
  InList swallowing name w ∨ InList leaving name w ∨ InList unknown name w ∨ InList misnamed name w

instance (name w : String) : Decidable (Exceptional name w) := by unfold Exceptional; infer_instance

/-- One flag or option is the other one, up to the spellings of the manual. -/
def SameOption (page : List ManualEntry) : FlagOption → FlagOption → Prop
  | .flag w, .flag w' => ManualSynonyms page w w'
  | .option w a, .option w' a' => ManualSynonyms page w w' ∧ a = a'
  | _, _ => False

/-- The same flags and options one by one, in the same order. -/
inductive SameOptions (page : List ManualEntry) : List FlagOption → List FlagOption → Prop
  | nil : SameOptions page [] []
  | cons {f f' fs fs'} : SameOption page f f' → SameOptions page fs fs' → SameOptions page (f :: fs) (f' :: fs')

end PashAnn.Spec
