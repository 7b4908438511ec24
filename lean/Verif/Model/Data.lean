import Verif.Model.Py

/-!
GENERATED by tools/gen_data.py from /repo/pash_annotations/parser/command_flag_option_info/data/*.json.
One definition per JSON file, entries in file order. Keys other than "flag" and "option" ("comment") are
never read by the code and are dropped.
-/

namespace PashAnn

/-- An entry of the "flag" list of a data file: a list of synonyms, or (only in uniq.json, lines 14, 19, 28)
a bare string, over which the Python code iterates character by character (parser.py:84-86). -/
inductive FlagEntry where
  | group (names : List String)
  | bare (s : String)
deriving DecidableEq, Repr

/-- Last element of an entry of the "option" list: a plain word, or a pair of word and access kind
(InputOutputInfoGenerator_Interface.py:70-85). -/
inductive ArgInfo where
  | word (kind : String)
  | withAccess (kind access : String)
deriving DecidableEq, Repr

/-- An entry of the "option" list: the spellings (all elements but the last) and the argument information
(the last element), see parser.py:77 and parser.py:100. -/
structure OptionEntry where
  names : List String
  arg : ArgInfo
deriving DecidableEq, Repr

/-- The two keys of a data file that the code reads (parser.py:76, 84, 92, 99). -/
structure JsonData where
  flag : List FlagEntry
  option : List OptionEntry
deriving DecidableEq, Repr

namespace Data

/-- _default_data_for_commands.json -/
def d_default_data_for_commands : JsonData where
  flag := []
  option := []

/-- awk.json -/
def d_awk : JsonData where
  flag := [.group ["-F", "--field-separator"],
    .group ["-b", "--characters-as-bytes"],
    .group ["-c", "--traditional"],
    .group ["-C", "--copyright"],
    .group ["-d", "--dump-variables"],
    .group ["-D", "--debug"],
    .group ["-e", "--source"],
    .group ["-E", "--exec"],
    .group ["-g", "--gen-pot"],
    .group ["-h", "--help"],
    .group ["-i", "--include"],
    .group ["-l", "--load"],
    .group ["-L", "--lint"],
    .group ["-M", "--bignum"],
    .group ["-n", "--non-decimal-data"],
    .group ["-N", "--use-lc-numeric"],
    .group ["-ofile", "--pretty-print"],
    .group ["-O", "--optimize"],
    .group ["-p", "--profile"],
    .group ["-P", "--posix"],
    .group ["-r", "--re-interval"],
    .group ["-S", "--sandbox"],
    .group ["-t", "--lint-old"],
    .group ["-V", "--version"]]
  option := [⟨["-f", "--file"], .withAccess "FILE" "CONFIG_INPUT"⟩]

/-- cat.json -/
def d_cat : JsonData where
  flag := [.group ["-A", "--show-all"],
    .group ["-b", "--number-nonblank"],
    .group ["-e", "-vE"],
    .group ["-E", "--show-ends"],
    .group ["-n", "--number"],
    .group ["-s", "--squeeze-blank"],
    .group ["-t", "-vT"],
    .group ["-T", "--show-tabs"],
    .group ["-u"],
    .group ["-v", "--show-nonprinting"],
    .group ["--help"],
    .group ["--version"]]
  option := []

/-- col.json -/
def d_col : JsonData where
  flag := [.group ["-b", "--no-backspaces"],
    .group ["-f", "--fine"],
    .group ["-h", "--tabs"],
    .group ["-l", "--lines"],
    .group ["-p", "--pass"],
    .group ["-x", "--spaces"],
    .group ["-V", "--version"],
    .group ["-H", "--help"]]
  option := []

/-- comm.json -/
def d_comm : JsonData where
  flag := [.group ["-1"],
    .group ["-2"],
    .group ["-3"],
    .group ["--check-order"],
    .group ["--nocheck-order"],
    .group ["--total"],
    .group ["-z", "--zero-terminated"],
    .group ["--help"],
    .group ["--version"]]
  option := [⟨["--output-delimiter"], .word "STR"⟩]

/-- custom_sort.json -/
def d_custom_sort : JsonData where
  flag := []
  option := []

/-- custom_tr.json -/
def d_custom_tr : JsonData where
  flag := []
  option := []

/-- cut.json -/
def d_cut : JsonData where
  flag := [.group ["-n"],
    .group ["--complement"],
    .group ["-s", "--only-delimited"],
    .group ["-z", "--zero-terminated"],
    .group ["--help"],
    .group ["--version"],
    .group ["-M"]]
  option := [⟨["-b", "--bytes"], .word "LIST"⟩,
    ⟨["-c", "--characters"], .word "LIST"⟩,
    ⟨["-d", "--delimiter"], .word "DELIM"⟩,
    ⟨["-f", "--fields"], .word "LIST"⟩,
    ⟨["--output-delimiter"], .word "STRING"⟩]

/-- diff.json -/
def d_diff : JsonData where
  flag := [.group ["--normal"],
    .group ["-q", "--brief"],
    .group ["-s", "--report-identical-files"],
    .group ["-e", "--ed"],
    .group ["-n", "--rcs"],
    .group ["-y", "--side-by-side"],
    .group ["--left-column"],
    .group ["--suppress-common-lines"],
    .group ["-p", "--show-c-function"],
    .group ["-t", "--expand-tabs"],
    .group ["-T", "--initial-tab"],
    .group ["--suppress-blank-empty"],
    .group ["-l", "--paginate"],
    .group ["-r", "--recursive"],
    .group ["--no-dereference"],
    .group ["-N", "--new-file"],
    .group ["--unidirectional-new-file"],
    .group ["--ignore-file-name-case"],
    .group ["--no-ignore-file-name-case"],
    .group ["-i", "--ignore-case"],
    .group ["-E", "--ignore-tab-expansion"],
    .group ["-Z", "--ignore-trailing-space"],
    .group ["-b", "--ignore-space-change"],
    .group ["-w", "--ignore-all-space"],
    .group ["-B", "--ignore-blank-lines"],
    .group ["-a", "--text"],
    .group ["--strip-trailing-cr"],
    .group ["-d", "--minimal"],
    .group ["--speed-large-files"],
    .group ["--help"],
    .group ["-v", "--version"]]
  option := [⟨["-c", "-C", "--context"], .word "NUM"⟩,
    ⟨["-u", "-U", "--unified"], .word "NUM"⟩,
    ⟨["-W", "--width"], .word "NUM"⟩,
    ⟨["-F", "--show-function-line"], .word "RE"⟩,
    ⟨["--label"], .word "LABEL"⟩,
    ⟨["--tabsize"], .word "NUM"⟩,
    ⟨["-x", "--exclude"], .word "PAT"⟩,
    ⟨["--exclude-from", "-X"], .withAccess "FILE" "EXCLUDES_FROM_INPUT"⟩,
    ⟨["-S", "--starting-file"], .withAccess "FILE" "OTHER_INPUT"⟩,
    ⟨["--from-file"], .withAccess "FILE" "STREAM_INPUT"⟩,
    ⟨["--to-file"], .withAccess "FILE" "STREAM_INPUT"⟩,
    ⟨["-I", "--ignore-matching-lines"], .word "RE"⟩,
    ⟨["-D", "--ifdef"], .word "NAME"⟩,
    ⟨["--line-format"], .word "LFMT"⟩,
    ⟨["--horizon-lines"], .word "NUM"⟩,
    ⟨["--color"], .word "WHEN"⟩,
    ⟨["--palette"], .word "PALETTE"⟩]

/-- export.json -/
def d_export : JsonData where
  flag := [.group ["-f"],
    .group ["-n"],
    .group ["-p"]]
  option := []

/-- grep.json -/
def d_grep : JsonData where
  flag := [.group ["--help"],
    .group ["-V", "--version"],
    .group ["-E", "--extended-regexp"],
    .group ["-F", "--fixed-strings"],
    .group ["-G", "--basic-regexp"],
    .group ["-P", "--perl-regexp"],
    .group ["-i", "-y", "--ignore-case"],
    .group ["--no-ignore-case"],
    .group ["-v", "--invert-match"],
    .group ["-w", "--word-regexp"],
    .group ["-x", "--line-regexp"],
    .group ["-c", "--count"],
    .group ["-L", "--files-without-match"],
    .group ["-l", "--files-with-matches"],
    .group ["-o", "--only-matching"],
    .group ["-q", "--quiet", "--silent"],
    .group ["-s", "--no-messages"],
    .group ["-b", "--byte-offset"],
    .group ["-H", "--with-filename"],
    .group ["-h", "--no-filename"],
    .group ["-n", "--line-number"],
    .group ["-T", "--initial-tab"],
    .group ["-u", "--unix-byte-offsets"],
    .group ["-Z", "--null"],
    .group ["--no-group-separator"],
    .group ["-a", "--text"],
    .group ["-I"],
    .group ["-r", "--recursive"],
    .group ["-R", "--dereference-recursive"],
    .group ["--line-buffered"],
    .group ["-U", "--binary"],
    .group ["-z", "--null-data"]]
  option := [⟨["-e"], .word "PATTERNS"⟩,
    ⟨["--regexp"], .word "PATTERNS"⟩,
    ⟨["-f", "--file"], .withAccess "FILE" "CONFIG_INPUT"⟩,
    ⟨["--color"], .word "WHEN"⟩,
    ⟨["--colour"], .word "WHEN"⟩,
    ⟨["-m"], .word "NUM"⟩,
    ⟨["--max-count"], .word "NUM"⟩,
    ⟨["--label"], .word "LABEL"⟩,
    ⟨["-A"], .word "NUM"⟩,
    ⟨["--after-context"], .word "NUM"⟩,
    ⟨["-B"], .word "NUM"⟩,
    ⟨["--before-context"], .word "NUM"⟩,
    ⟨["-C"], .word "NUM"⟩,
    ⟨["--context"], .word "NUM"⟩,
    ⟨["--group-separator"], .word "SEP"⟩,
    ⟨["--binary-files"], .word "TYPE"⟩,
    ⟨["-D"], .word "ACTION"⟩,
    ⟨["--devices"], .word "ACTION"⟩,
    ⟨["-d"], .word "ACTION"⟩,
    ⟨["--directories"], .word "ACTION"⟩,
    ⟨["--exclude"], .word "GLOB"⟩,
    ⟨["--exclude-from"], .withAccess "FILE" "EXCLUDES_FROM_INPUT"⟩,
    ⟨["--exclude-dir"], .word "GLOB"⟩,
    ⟨["--include"], .word "GLOB"⟩]

/-- head.json -/
def d_head : JsonData where
  flag := [.group ["-q", "--quiet", "--silent"],
    .group ["-v", "--verbose"],
    .group ["-z", "--zero-terminated"],
    .group ["--help"],
    .group ["--version"]]
  option := [⟨["-n", "--lines"], .word "NUM"⟩,
    ⟨["-c", "--bytes"], .word "NUM"⟩]

/-- mkfifo.json -/
def d_mkfifo : JsonData where
  flag := [.group ["-m"],
    .group ["-Z"],
    .group ["--help"],
    .group ["--version"]]
  option := [⟨["--mode"], .word "MODE"⟩,
    ⟨["--context"], .word "CTX"⟩]

/-- mv.json -/
def d_mv : JsonData where
  flag := [.group ["-b", "--backup"],
    .group ["-f", "--force"],
    .group ["-i", "--interactive"],
    .group ["-n", "--no-clobber"],
    .group ["--strip-trailing-slashes"],
    .group ["-T", "--no-target-directory"],
    .group ["-u", "--update"],
    .group ["-v", "--verbose"],
    .group ["-Z", "--context"],
    .group ["--help"],
    .group ["--version"]]
  option := [⟨["--backup"], .word "CONTROL"⟩,
    ⟨["-S", "--suffix"], .word "SUFFIX"⟩,
    ⟨["-t", "--target-directory"], .withAccess "DIRECTORY" "OTHER_OUTPUT"⟩]

/-- rm.json -/
def d_rm : JsonData where
  flag := [.group ["-f", "--force"],
    .group ["-i"],
    .group ["-I"],
    .group ["--one-file-system"],
    .group ["--no-preserve-root"],
    .group ["-r", "-R", "--recursive"],
    .group ["-d", "--dir"],
    .group ["-v", "--verbose"],
    .group ["--help"],
    .group ["--version"]]
  option := [⟨["--interactive"], .word "WHEN"⟩,
    ⟨["--preserve-root"], .word "all"⟩]

/-- sed.json -/
def d_sed : JsonData where
  flag := [.group ["-n", "--quiet", "--silent"],
    .group ["--debug"],
    .group ["-e", "--expression"],
    .group ["-f", "--file"],
    .group ["--follow-symlinks"],
    .group ["--posix"],
    .group ["-E", "-r", "--regexp-extended"],
    .group ["-s", "--separate"],
    .group ["--sandbox"],
    .group ["-u", "--unbuffered"],
    .group ["-z", "--null-data"],
    .group ["--help"],
    .group ["--version"]]
  option := [⟨["--in-place"], .word "SUFFIX"⟩,
    ⟨["-l"], .word "N"⟩,
    ⟨["--line-length"], .word "N"⟩]

/-- seq.json -/
def d_seq : JsonData where
  flag := [.group ["-w", "--equal-width"],
    .group ["--help"],
    .group ["--version"]]
  option := [⟨["-f", "--format"], .word "FORMAT"⟩,
    ⟨["-s", "--separator"], .word "STRING"⟩]

/-- sort.json -/
def d_sort : JsonData where
  flag := [.group ["-b", "--ignore-leading-blanks"],
    .group ["-d", "--dictionary-order"],
    .group ["-f", "--ignore-case"],
    .group ["-g", "--general-numeric-sort"],
    .group ["-i", "--ignore-nonprinting"],
    .group ["-M", "--month-sort"],
    .group ["-h", "--human-numeric-sort"],
    .group ["-n", "--numeric-sort"],
    .group ["-R", "--random-sort"],
    .group ["-r", "--reverse"],
    .group ["-V", "--version-sort"],
    .group ["-c", "--check"],
    .group ["-C"],
    .group ["--debug"],
    .group ["-m", "--merge"],
    .group ["-s", "--stable"],
    .group ["-u", "--unique"],
    .group ["-z", "--zero-terminated"],
    .group ["--help"],
    .group ["--version"]]
  option := [⟨["--random-source"], .withAccess "FILE" "CONFIG_INPUT"⟩,
    ⟨["--sort"], .word "WORD"⟩,
    ⟨["--batch-size"], .word "NMERGE"⟩,
    ⟨["--compress-program"], .word "PROG"⟩,
    ⟨["--files0-from"], .withAccess "FILE" "CONTAINER_FOR_INPUT"⟩,
    ⟨["-k", "--key"], .word "KEYDEF"⟩,
    ⟨["-o", "--output"], .withAccess "FILE" "STREAM_OUTPUT"⟩,
    ⟨["-S", "--buffer-size"], .word "SIZE"⟩,
    ⟨["-t", "--field-separator"], .word "SEP"⟩,
    ⟨["-T", "--temporary-directory"], .withAccess "DIR" "OTHER_OUTPUT"⟩,
    ⟨["--parallel"], .word "N"⟩]

/-- tail.json -/
def d_tail : JsonData where
  flag := [.group ["-c", "--bytes"],
    .group ["-f", "--follow"],
    .group ["-n", "--lines"],
    .group ["-q", "--quiet", "--silent"],
    .group ["--retry"],
    .group ["-s"],
    .group ["-v", "--verbose"],
    .group ["-z", "--zero-terminated"],
    .group ["--help"],
    .group ["--version"]]
  option := [⟨["--max-unchanged-stats"], .word "N"⟩,
    ⟨["--pid"], .word "PID"⟩,
    ⟨["--sleep-interval"], .word "N"⟩]

/-- tee.json -/
def d_tee : JsonData where
  flag := [.group ["-a", "--append"],
    .group ["-i", "--ignore-interrupts"],
    .group ["-p"],
    .group ["--help"],
    .group ["--version"]]
  option := [⟨["--output-error"], .word "MODE"⟩]

/-- tr.json -/
def d_tr : JsonData where
  flag := [.group ["-c", "-C", "--complement"],
    .group ["-d", "--delete"],
    .group ["-s", "--squeeze-repeats"],
    .group ["-t"],
    .group ["--help"],
    .group ["--version"]]
  option := []

/-- uniq.json -/
def d_uniq : JsonData where
  flag := [.group ["-c", "--count"],
    .group ["-d", "--repeated"],
    .group ["-D"],
    .bare "-f",
    .group ["-i", "--ignore-case"],
    .bare "-s",
    .group ["-u", "--unique"],
    .group ["-z", "--zero-terminated"],
    .bare "-w",
    .group ["--help"],
    .group ["--version"]]
  option := [⟨["--all-repeated"], .word "METHOD"⟩,
    ⟨["--skip-fields"], .word "N"⟩,
    ⟨["--group"], .word "METHOD"⟩,
    ⟨["--skip-chars"], .word "N"⟩,
    ⟨["--check-chars"], .word "N"⟩]

/-- wc.json -/
def d_wc : JsonData where
  flag := [.group ["-c", "--bytes"],
    .group ["-m", "--chars"],
    .group ["-l", "--lines"],
    .group ["-L", "--max-line-length"],
    .group ["-w", "--words"],
    .group ["--help"],
    .group ["--version"]]
  option := [⟨["--files0-from"], .word "GLOB"⟩]

/-- xargs.json -/
def d_xargs : JsonData where
  flag := [.group ["--null"],
    .group ["-o", "--open-tty"],
    .group ["-p", "--interactive"],
    .group ["--process-slot-var"],
    .group ["-r", "--no-run-if-empty"],
    .group ["-s", "--max-chars"],
    .group ["--show-limits"],
    .group ["-t", "--verbose"],
    .group ["-x", "--exit"],
    .group ["--help"],
    .group ["--version"]]
  option := [⟨["-a", "--arg-file"], .withAccess "FILE" "OTHER_INPUT"⟩,
    ⟨["--delimiter", "-d"], .word "DELIM"⟩,
    ⟨["-E", "-e", "--eof"], .word "EOF_STR"⟩,
    ⟨["-I", "-i", "--replace"], .word "REPLACE-STR"⟩,
    ⟨["-L", "-l", "--max-lines"], .word "max-lines"⟩,
    ⟨["-n", "--max-args"], .word "max-args"⟩,
    ⟨["-P", "--max-procs"], .word "max-procs"⟩]

/-- The content of the data directory: file name without .json, and content. They are read in util_parser.py:9. -/
def table : List (String × JsonData) := [
  ("_default_data_for_commands", d_default_data_for_commands),
  ("awk", d_awk),
  ("cat", d_cat),
  ("col", d_col),
  ("comm", d_comm),
  ("custom_sort", d_custom_sort),
  ("custom_tr", d_custom_tr),
  ("cut", d_cut),
  ("diff", d_diff),
  ("export", d_export),
  ("grep", d_grep),
  ("head", d_head),
  ("mkfifo", d_mkfifo),
  ("mv", d_mv),
  ("rm", d_rm),
  ("sed", d_sed),
  ("seq", d_seq),
  ("sort", d_sort),
  ("tail", d_tail),
  ("tee", d_tee),
  ("tr", d_tr),
  ("uniq", d_uniq),
  ("wc", d_wc),
  ("xargs", d_xargs)]

end Data
end PashAnn
