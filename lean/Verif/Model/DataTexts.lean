/-!
GENERATED by tools/gen_texts.py: the texts of /repo/pash_annotations/parser/command_flag_option_info/data/*.json, copied letter by
letter as raw strings, one for each line; what follows the last line end is the last string.
-/

namespace PashAnn.DataTexts

/-- data/_default_data_for_commands.json -/
def t_default_data_for_commands : List String := [
  r#"{"#,
  r#"    "flag": [],"#,
  r#"    "option": [],"#,
  r#"    "comment": "just to have json-file for the test using this function""#,
  r#"}"#,
  r#""#]

/-- data/awk.json -/
def t_awk : List String := [
  r#"{"#,
  r#"    "flag": ["#,
  r#"        ["#,
  r#"            "-F","#,
  r#"            "--field-separator""#,
  r#"        ],"#,
  r#"        ["#,
  r#"            "-b","#,
  r#"            "--characters-as-bytes""#,
  r#"        ],"#,
  r#"        ["#,
  r#"            "-c","#,
  r#"            "--traditional""#,
  r#"        ],"#,
  r#"        ["#,
  r#"            "-C","#,
  r#"            "--copyright""#,
  r#"        ],"#,
  r#"        ["#,
  r#"            "-d","#,
  r#"            "--dump-variables""#,
  r#"        ],"#,
  r#"        ["#,
  r#"            "-D","#,
  r#"            "--debug""#,
  r#"        ],"#,
  r#"        ["#,
  r#"            "-e","#,
  r#"            "--source""#,
  r#"        ],"#,
  r#"        ["#,
  r#"            "-E","#,
  r#"            "--exec""#,
  r#"        ],"#,
  r#"        ["#,
  r#"            "-g","#,
  r#"            "--gen-pot""#,
  r#"        ],"#,
  r#"        ["#,
  r#"            "-h","#,
  r#"            "--help""#,
  r#"        ],"#,
  r#"        ["#,
  r#"            "-i","#,
  r#"            "--include""#,
  r#"        ],"#,
  r#"        ["#,
  r#"            "-l","#,
  r#"            "--load""#,
  r#"        ],"#,
  r#"        ["#,
  r#"            "-L","#,
  r#"            "--lint""#,
  r#"        ],"#,
  r#"        ["#,
  r#"            "-M","#,
  r#"            "--bignum""#,
  r#"        ],"#,
  r#"        ["#,
  r#"            "-n","#,
  r#"            "--non-decimal-data""#,
  r#"        ],"#,
  r#"        ["#,
  r#"            "-N","#,
  r#"            "--use-lc-numeric""#,
  r#"        ],"#,
  r#"        ["#,
  r#"            "-ofile","#,
  r#"            "--pretty-print""#,
  r#"        ],"#,
  r#"        ["#,
  r#"            "-O","#,
  r#"            "--optimize""#,
  r#"        ],"#,
  r#"        ["#,
  r#"            "-p","#,
  r#"            "--profile""#,
  r#"        ],"#,
  r#"        ["#,
  r#"            "-P","#,
  r#"            "--posix""#,
  r#"        ],"#,
  r#"        ["#,
  r#"            "-r","#,
  r#"            "--re-interval""#,
  r#"        ],"#,
  r#"        ["#,
  r#"            "-S","#,
  r#"            "--sandbox""#,
  r#"        ],"#,
  r#"        ["#,
  r#"            "-t","#,
  r#"            "--lint-old""#,
  r#"        ],"#,
  r#"        ["#,
  r#"            "-V","#,
  r#"            "--version""#,
  r#"        ]"#,
  r#"    ],"#,
  r#"    "option": ["#,
  r#"        ["#,
  r#"            "-f","#,
  r#"            "--file","#,
  r#"            ["FILE", "CONFIG_INPUT"]"#,
  r#"        ]"#,
  r#"    ]"#,
  r#"}"#,
  r#""#]

/-- data/cat.json -/
def t_cat : List String := [
  r#"{"#,
  r#"    "flag": ["#,
  r#"        ["#,
  r#"            "-A","#,
  r#"            "--show-all""#,
  r#"        ],"#,
  r#"        ["#,
  r#"            "-b","#,
  r#"            "--number-nonblank""#,
  r#"        ],"#,
  r#"        ["#,
  r#"            "-e","#,
  r#"            "-vE""#,
  r#"        ],"#,
  r#"        ["#,
  r#"            "-E","#,
  r#"            "--show-ends""#,
  r#"        ],"#,
  r#"        ["#,
  r#"            "-n","#,
  r#"            "--number""#,
  r#"        ],"#,
  r#"        ["#,
  r#"            "-s","#,
  r#"            "--squeeze-blank""#,
  r#"        ],"#,
  r#"        ["#,
  r#"            "-t","#,
  r#"            "-vT""#,
  r#"        ],"#,
  r#"        ["#,
  r#"            "-T","#,
  r#"            "--show-tabs""#,
  r#"        ],"#,
  r#"        ["#,
  r#"            "-u""#,
  r#"        ],"#,
  r#"        ["#,
  r#"            "-v","#,
  r#"            "--show-nonprinting""#,
  r#"        ],"#,
  r#"        ["#,
  r#"            "--help""#,
  r#"        ],"#,
  r#"        ["#,
  r#"            "--version""#,
  r#"        ]"#,
  r#"    ],"#,
  r#"    "option": []"#,
  r#"}"#,
  r#""#]

/-- data/col.json -/
def t_col : List String := [
  r#"{"#,
  r#"    "flag": ["#,
  r#"        ["#,
  r#"            "-b","#,
  r#"            "--no-backspaces""#,
  r#"        ],"#,
  r#"        ["#,
  r#"            "-f","#,
  r#"            "--fine""#,
  r#"        ],"#,
  r#"        ["#,
  r#"            "-h","#,
  r#"            "--tabs""#,
  r#"        ],"#,
  r#"        ["#,
  r#"            "-l","#,
  r#"            "--lines""#,
  r#"        ],"#,
  r#"        ["#,
  r#"            "-p","#,
  r#"            "--pass""#,
  r#"        ],"#,
  r#"        ["#,
  r#"            "-x","#,
  r#"            "--spaces""#,
  r#"        ],"#,
  r#"        ["#,
  r#"            "-V","#,
  r#"            "--version""#,
  r#"        ],"#,
  r#"        ["#,
  r#"            "-H","#,
  r#"            "--help""#,
  r#"        ]"#,
  r#"    ],"#,
  r#"    "option": []"#,
  r#"}"#,
  r#""#]

/-- data/comm.json -/
def t_comm : List String := [
  r#"{"#,
  r#"    "flag": ["#,
  r#"        ["#,
  r#"            "-1""#,
  r#"        ],"#,
  r#"        ["#,
  r#"            "-2""#,
  r#"        ],"#,
  r#"        ["#,
  r#"            "-3""#,
  r#"        ],"#,
  r#"        ["#,
  r#"            "--check-order""#,
  r#"        ],"#,
  r#"        ["#,
  r#"            "--nocheck-order""#,
  r#"        ],"#,
  r#"        ["#,
  r#"            "--total""#,
  r#"        ],"#,
  r#"        ["#,
  r#"            "-z","#,
  r#"            "--zero-terminated""#,
  r#"        ],"#,
  r#"        ["#,
  r#"            "--help""#,
  r#"        ],"#,
  r#"        ["#,
  r#"            "--version""#,
  r#"        ]"#,
  r#"    ],"#,
  r#"    "option": ["#,
  r#"        ["#,
  r#"            "--output-delimiter","#,
  r#"            "STR""#,
  r#"        ]"#,
  r#"    ]"#,
  r#"}"#,
  r#""#]

/-- data/custom_sort.json -/
def t_custom_sort : List String := [
  r#"{"#,
  r#"    "flag": [],"#,
  r#"    "option": []"#,
  r#"}"#,
  r#""#]

/-- data/custom_tr.json -/
def t_custom_tr : List String := [
  r#"{"#,
  r#"    "flag": [],"#,
  r#"    "option": []"#,
  r#"}"#,
  r#""#]

/-- data/cut.json -/
def t_cut : List String := [
  r#"{"#,
  r#"    "flag": ["#,
  r#"        ["#,
  r#"            "-n""#,
  r#"        ],"#,
  r#"        ["#,
  r#"            "--complement""#,
  r#"        ],"#,
  r#"        ["#,
  r#"            "-s","#,
  r#"            "--only-delimited""#,
  r#"        ],"#,
  r#"        ["#,
  r#"            "-z","#,
  r#"            "--zero-terminated""#,
  r#"        ],"#,
  r#"        ["#,
  r#"            "--help""#,
  r#"        ],"#,
  r#"        ["#,
  r#"            "--version""#,
  r#"        ],"#,
  r#"        ["#,
  r#"            "-M""#,
  r#"        ]"#,
  r#"    ],"#,
  r#"    "option": ["#,
  r#"        ["#,
  r#"            "-b","#,
  r#"            "--bytes","#,
  r#"            "LIST""#,
  r#"        ],"#,
  r#"        ["#,
  r#"            "-c","#,
  r#"            "--characters","#,
  r#"            "LIST""#,
  r#"        ],"#,
  r#"        ["#,
  r#"            "-d","#,
  r#"            "--delimiter","#,
  r#"            "DELIM""#,
  r#"        ],"#,
  r#"        ["#,
  r#"            "-f","#,
  r#"            "--fields","#,
  r#"            "LIST""#,
  r#"        ],"#,
  r#"        ["#,
  r#"            "--output-delimiter","#,
  r#"            "STRING""#,
  r#"        ]"#,
  r#"    ]"#,
  r#"}"#,
  r#""#]

/-- data/diff.json -/
def t_diff : List String := [
  r#"{"#,
  r#"    "flag": ["#,
  r#"        ["#,
  r#"            "--normal""#,
  r#"        ],"#,
  r#"        ["#,
  r#"            "-q","#,
  r#"            "--brief""#,
  r#"        ],"#,
  r#"        ["#,
  r#"            "-s","#,
  r#"            "--report-identical-files""#,
  r#"        ],"#,
  r#"        ["#,
  r#"            "-e","#,
  r#"            "--ed""#,
  r#"        ],"#,
  r#"        ["#,
  r#"            "-n","#,
  r#"            "--rcs""#,
  r#"        ],"#,
  r#"        ["#,
  r#"            "-y","#,
  r#"            "--side-by-side""#,
  r#"        ],"#,
  r#"        ["#,
  r#"            "--left-column""#,
  r#"        ],"#,
  r#"        ["#,
  r#"            "--suppress-common-lines""#,
  r#"        ],"#,
  r#"        ["#,
  r#"            "-p","#,
  r#"            "--show-c-function""#,
  r#"        ],"#,
  r#"        ["#,
  r#"            "-t","#,
  r#"            "--expand-tabs""#,
  r#"        ],"#,
  r#"        ["#,
  r#"            "-T","#,
  r#"            "--initial-tab""#,
  r#"        ],"#,
  r#"        ["#,
  r#"            "--suppress-blank-empty""#,
  r#"        ],"#,
  r#"        ["#,
  r#"            "-l","#,
  r#"            "--paginate""#,
  r#"        ],"#,
  r#"        ["#,
  r#"            "-r","#,
  r#"            "--recursive""#,
  r#"        ],"#,
  r#"        ["#,
  r#"            "--no-dereference""#,
  r#"        ],"#,
  r#"        ["#,
  r#"            "-N","#,
  r#"            "--new-file""#,
  r#"        ],"#,
  r#"        ["#,
  r#"            "--unidirectional-new-file""#,
  r#"        ],"#,
  r#"        ["#,
  r#"            "--ignore-file-name-case""#,
  r#"        ],"#,
  r#"        ["#,
  r#"            "--no-ignore-file-name-case""#,
  r#"        ],"#,
  r#"        ["#,
  r#"            "-i","#,
  r#"            "--ignore-case""#,
  r#"        ],"#,
  r#"        ["#,
  r#"            "-E","#,
  r#"            "--ignore-tab-expansion""#,
  r#"        ],"#,
  r#"        ["#,
  r#"            "-Z","#,
  r#"            "--ignore-trailing-space""#,
  r#"        ],"#,
  r#"        ["#,
  r#"            "-b","#,
  r#"            "--ignore-space-change""#,
  r#"        ],"#,
  r#"        ["#,
  r#"            "-w","#,
  r#"            "--ignore-all-space""#,
  r#"        ],"#,
  r#"        ["#,
  r#"            "-B","#,
  r#"            "--ignore-blank-lines""#,
  r#"        ],"#,
  r#"        ["#,
  r#"            "-a","#,
  r#"            "--text""#,
  r#"        ],"#,
  r#"        ["#,
  r#"            "--strip-trailing-cr""#,
  r#"        ],"#,
  r#"        ["#,
  r#"            "-d","#,
  r#"            "--minimal""#,
  r#"        ],"#,
  r#"        ["#,
  r#"            "--speed-large-files""#,
  r#"        ],"#,
  r#"        ["#,
  r#"            "--help""#,
  r#"        ],"#,
  r#"        ["#,
  r#"            "-v","#,
  r#"            "--version""#,
  r#"        ]"#,
  r#"    ],"#,
  r#"    "option": ["#,
  r#"        ["#,
  r#"            "-c","#,
  r#"            "-C","#,
  r#"            "--context","#,
  r#"            "NUM""#,
  r#"        ],"#,
  r#"        ["#,
  r#"            "-u","#,
  r#"            "-U","#,
  r#"            "--unified","#,
  r#"            "NUM""#,
  r#"        ],"#,
  r#"        ["#,
  r#"            "-W","#,
  r#"            "--width","#,
  r#"            "NUM""#,
  r#"        ],"#,
  r#"        ["#,
  r#"            "-F","#,
  r#"            "--show-function-line","#,
  r#"            "RE""#,
  r#"        ],"#,
  r#"        ["#,
  r#"            "--label","#,
  r#"            "LABEL""#,
  r#"        ],"#,
  r#"        ["#,
  r#"            "--tabsize","#,
  r#"            "NUM""#,
  r#"        ],"#,
  r#"        ["#,
  r#"            "-x","#,
  r#"            "--exclude","#,
  r#"            "PAT""#,
  r#"        ],"#,
  r#"        ["#,
  r#"            "--exclude-from","#,
  r#"            "-X","#,
  r#"            ["FILE", "EXCLUDES_FROM_INPUT"]"#,
  r#"        ],"#,
  r#"        ["#,
  r#"            "-S","#,
  r#"            "--starting-file","#,
  r#"            ["FILE", "OTHER_INPUT"]"#,
  r#"        ],"#,
  r#"        ["#,
  r#"            "--from-file","#,
  r#"            ["FILE", "STREAM_INPUT"]"#,
  r#"        ],"#,
  r#"        ["#,
  r#"            "--to-file","#,
  r#"            ["FILE", "STREAM_INPUT"]"#,
  r#"        ],"#,
  r#"        ["#,
  r#"            "-I","#,
  r#"            "--ignore-matching-lines","#,
  r#"            "RE""#,
  r#"        ],"#,
  r#"        ["#,
  r#"            "-D","#,
  r#"            "--ifdef","#,
  r#"            "NAME""#,
  r#"        ],"#,
  r#"        ["#,
  r#"            "--line-format","#,
  r#"            "LFMT""#,
  r#"        ],"#,
  r#"        ["#,
  r#"            "--horizon-lines","#,
  r#"            "NUM""#,
  r#"        ],"#,
  r#"        ["#,
  r#"            "--color","#,
  r#"            "WHEN""#,
  r#"        ],"#,
  r#"        ["#,
  r#"            "--palette","#,
  r#"            "PALETTE""#,
  r#"        ]"#,
  r#"    ]"#,
  r#"}"#,
  r#""#]

/-- data/export.json -/
def t_export : List String := [
  r#"{"#,
  r#"    "flag": ["#,
  r#"        ["#,
  r#"            "-f""#,
  r#"        ],"#,
  r#"        ["#,
  r#"            "-n""#,
  r#"        ],"#,
  r#"        ["#,
  r#"            "-p""#,
  r#"        ]"#,
  r#"    ],"#,
  r#"    "option": [],"#,
  r#"    "comment": "ignores [name[=value] ...]""#,
  r#"}"#,
  r#""#]

/-- data/grep.json -/
def t_grep : List String := [
  r#"{"#,
  r#"    "flag": ["#,
  r#"        ["#,
  r#"            "--help""#,
  r#"        ],"#,
  r#"        ["#,
  r#"            "-V","#,
  r#"            "--version""#,
  r#"        ],"#,
  r#"        ["#,
  r#"            "-E","#,
  r#"            "--extended-regexp""#,
  r#"        ],"#,
  r#"        ["#,
  r#"            "-F","#,
  r#"            "--fixed-strings""#,
  r#"        ],"#,
  r#"        ["#,
  r#"            "-G","#,
  r#"            "--basic-regexp""#,
  r#"        ],"#,
  r#"        ["#,
  r#"            "-P","#,
  r#"            "--perl-regexp""#,
  r#"        ],"#,
  r#"        ["#,
  r#"            "-i","#,
  r#"            "-y","#,
  r#"            "--ignore-case""#,
  r#"        ],"#,
  r#"        ["#,
  r#"            "--no-ignore-case""#,
  r#"        ],"#,
  r#"        ["#,
  r#"            "-v","#,
  r#"            "--invert-match""#,
  r#"        ],"#,
  r#"        ["#,
  r#"            "-w","#,
  r#"            "--word-regexp""#,
  r#"        ],"#,
  r#"        ["#,
  r#"            "-x","#,
  r#"            "--line-regexp""#,
  r#"        ],"#,
  r#"        ["#,
  r#"            "-c","#,
  r#"            "--count""#,
  r#"        ],"#,
  r#"        ["#,
  r#"            "-L","#,
  r#"            "--files-without-match""#,
  r#"        ],"#,
  r#"        ["#,
  r#"            "-l","#,
  r#"            "--files-with-matches""#,
  r#"        ],"#,
  r#"        ["#,
  r#"            "-o","#,
  r#"            "--only-matching""#,
  r#"        ],"#,
  r#"        ["#,
  r#"            "-q","#,
  r#"            "--quiet","#,
  r#"            "--silent""#,
  r#"        ],"#,
  r#"        ["#,
  r#"            "-s","#,
  r#"            "--no-messages""#,
  r#"        ],"#,
  r#"        ["#,
  r#"            "-b","#,
  r#"            "--byte-offset""#,
  r#"        ],"#,
  r#"        ["#,
  r#"            "-H","#,
  r#"            "--with-filename""#,
  r#"        ],"#,
  r#"        ["#,
  r#"            "-h","#,
  r#"            "--no-filename""#,
  r#"        ],"#,
  r#"        ["#,
  r#"            "-n","#,
  r#"            "--line-number""#,
  r#"        ],"#,
  r#"        ["#,
  r#"            "-T","#,
  r#"            "--initial-tab""#,
  r#"        ],"#,
  r#"        ["#,
  r#"            "-u","#,
  r#"            "--unix-byte-offsets""#,
  r#"        ],"#,
  r#"        ["#,
  r#"            "-Z","#,
  r#"            "--null""#,
  r#"        ],"#,
  r#"        ["#,
  r#"            "--no-group-separator""#,
  r#"        ],"#,
  r#"        ["#,
  r#"            "-a","#,
  r#"            "--text""#,
  r#"        ],"#,
  r#"        ["#,
  r#"            "-I""#,
  r#"        ],"#,
  r#"        ["#,
  r#"            "-r","#,
  r#"            "--recursive""#,
  r#"        ],"#,
  r#"        ["#,
  r#"            "-R","#,
  r#"            "--dereference-recursive""#,
  r#"        ],"#,
  r#"        ["#,
  r#"            "--line-buffered""#,
  r#"        ],"#,
  r#"        ["#,
  r#"            "-U","#,
  r#"            "--binary""#,
  r#"        ],"#,
  r#"        ["#,
  r#"            "-z","#,
  r#"            "--null-data""#,
  r#"        ]"#,
  r#"    ],"#,
  r#"    "option": ["#,
  r#"        ["#,
  r#"            "-e","#,
  r#"            "PATTERNS""#,
  r#"        ],"#,
  r#"        ["#,
  r#"            "--regexp","#,
  r#"            "PATTERNS""#,
  r#"        ],"#,
  r#"        ["#,
  r#"            "-f","#,
  r#"            "--file","#,
  r#"            ["FILE", "CONFIG_INPUT"]"#,
  r#"        ],"#,
  r#"        ["#,
  r#"            "--color","#,
  r#"            "WHEN""#,
  r#"        ],"#,
  r#"        ["#,
  r#"            "--colour","#,
  r#"            "WHEN""#,
  r#"        ],"#,
  r#"        ["#,
  r#"            "-m","#,
  r#"            "NUM""#,
  r#"        ],"#,
  r#"        ["#,
  r#"            "--max-count","#,
  r#"            "NUM""#,
  r#"        ],"#,
  r#"        ["#,
  r#"            "--label","#,
  r#"            "LABEL""#,
  r#"        ],"#,
  r#"        ["#,
  r#"            "-A","#,
  r#"            "NUM""#,
  r#"        ],"#,
  r#"        ["#,
  r#"            "--after-context","#,
  r#"            "NUM""#,
  r#"        ],"#,
  r#"        ["#,
  r#"            "-B","#,
  r#"            "NUM""#,
  r#"        ],"#,
  r#"        ["#,
  r#"            "--before-context","#,
  r#"            "NUM""#,
  r#"        ],"#,
  r#"        ["#,
  r#"            "-C","#,
  r#"            "NUM""#,
  r#"        ],"#,
  r#"        ["#,
  r#"            "--context","#,
  r#"            "NUM""#,
  r#"        ],"#,
  r#"        ["#,
  r#"            "--group-separator","#,
  r#"            "SEP""#,
  r#"        ],"#,
  r#"        ["#,
  r#"            "--binary-files","#,
  r#"            "TYPE""#,
  r#"        ],"#,
  r#"        ["#,
  r#"            "-D","#,
  r#"            "ACTION""#,
  r#"        ],"#,
  r#"        ["#,
  r#"            "--devices","#,
  r#"            "ACTION""#,
  r#"        ],"#,
  r#"        ["#,
  r#"            "-d","#,
  r#"            "ACTION""#,
  r#"        ],"#,
  r#"        ["#,
  r#"            "--directories","#,
  r#"            "ACTION""#,
  r#"        ],"#,
  r#"        ["#,
  r#"            "--exclude","#,
  r#"            "GLOB""#,
  r#"        ],"#,
  r#"        ["#,
  r#"            "--exclude-from","#,
  r#"            ["FILE", "EXCLUDES_FROM_INPUT"]"#,
  r#"        ],"#,
  r#"        ["#,
  r#"            "--exclude-dir","#,
  r#"            "GLOB""#,
  r#"        ],"#,
  r#"        ["#,
  r#"            "--include","#,
  r#"            "GLOB""#,
  r#"        ]"#,
  r#"    ]"#,
  r#"}"#,
  r#""#]

/-- data/head.json -/
def t_head : List String := [
  r#"{"#,
  r#"    "flag": ["#,
  r#"        ["#,
  r#"            "-q","#,
  r#"            "--quiet","#,
  r#"            "--silent""#,
  r#"        ],"#,
  r#"        ["#,
  r#"            "-v","#,
  r#"            "--verbose""#,
  r#"        ],"#,
  r#"        ["#,
  r#"            "-z","#,
  r#"            "--zero-terminated""#,
  r#"        ],"#,
  r#"        ["#,
  r#"            "--help""#,
  r#"        ],"#,
  r#"        ["#,
  r#"            "--version""#,
  r#"        ]"#,
  r#"    ],"#,
  r#"    "option": ["#,
  r#"        ["#,
  r#"            "-n","#,
  r#"            "--lines","#,
  r#"            "NUM""#,
  r#"        ],"#,
  r#"        ["#,
  r#"            "-c","#,
  r#"            "--bytes","#,
  r#"            "NUM""#,
  r#"        ]"#,
  r#"    ]"#,
  r#"}"#,
  r#""#]

/-- data/mkfifo.json -/
def t_mkfifo : List String := [
  r#"{"#,
  r#"    "flag": ["#,
  r#"        ["#,
  r#"            "-m""#,
  r#"        ],"#,
  r#"        ["#,
  r#"            "-Z""#,
  r#"        ],"#,
  r#"        ["#,
  r#"            "--help""#,
  r#"        ],"#,
  r#"        ["#,
  r#"            "--version""#,
  r#"        ]"#,
  r#"    ],"#,
  r#"    "option": ["#,
  r#"        ["#,
  r#"            "--mode","#,
  r#"            "MODE""#,
  r#"        ],"#,
  r#"        ["#,
  r#"            "--context","#,
  r#"            "CTX""#,
  r#"        ]"#,
  r#"    ]"#,
  r#"}"#,
  r#""#]

/-- data/mv.json -/
def t_mv : List String := [
  r#"{"#,
  r#"    "flag": ["#,
  r#"        ["#,
  r#"            "-b","#,
  r#"            "--backup""#,
  r#"        ],"#,
  r#"        ["#,
  r#"            "-f","#,
  r#"            "--force""#,
  r#"        ],"#,
  r#"        ["#,
  r#"            "-i","#,
  r#"            "--interactive""#,
  r#"        ],"#,
  r#"        ["#,
  r#"            "-n","#,
  r#"            "--no-clobber""#,
  r#"        ],"#,
  r#"        ["#,
  r#"            "--strip-trailing-slashes""#,
  r#"        ],"#,
  r#"        ["#,
  r#"            "-T","#,
  r#"            "--no-target-directory""#,
  r#"        ],"#,
  r#"        ["#,
  r#"            "-u","#,
  r#"            "--update""#,
  r#"        ],"#,
  r#"        ["#,
  r#"            "-v","#,
  r#"            "--verbose""#,
  r#"        ],"#,
  r#"        ["#,
  r#"            "-Z","#,
  r#"            "--context""#,
  r#"        ],"#,
  r#"        ["#,
  r#"            "--help""#,
  r#"        ],"#,
  r#"        ["#,
  r#"            "--version""#,
  r#"        ]"#,
  r#"    ],"#,
  r#"    "option": ["#,
  r#"        ["#,
  r#"            "--backup","#,
  r#"            "CONTROL""#,
  r#"        ],"#,
  r#"        ["#,
  r#"            "-S","#,
  r#"            "--suffix","#,
  r#"            "SUFFIX""#,
  r#"        ],"#,
  r#"        ["#,
  r#"            "-t","#,
  r#"            "--target-directory","#,
  r#"            ["DIRECTORY", "OTHER_OUTPUT"]"#,
  r#"        ]"#,
  r#"    ]"#,
  r#"}"#,
  r#""#]

/-- data/rm.json -/
def t_rm : List String := [
  r#"{"#,
  r#"    "flag": ["#,
  r#"        ["#,
  r#"            "-f","#,
  r#"            "--force""#,
  r#"        ],"#,
  r#"        ["#,
  r#"            "-i""#,
  r#"        ],"#,
  r#"        ["#,
  r#"            "-I""#,
  r#"        ],"#,
  r#"        ["#,
  r#"            "--one-file-system""#,
  r#"        ],"#,
  r#"        ["#,
  r#"            "--no-preserve-root""#,
  r#"        ],"#,
  r#"        ["#,
  r#"            "-r","#,
  r#"            "-R","#,
  r#"            "--recursive""#,
  r#"        ],"#,
  r#"        ["#,
  r#"            "-d","#,
  r#"            "--dir""#,
  r#"        ],"#,
  r#"        ["#,
  r#"            "-v","#,
  r#"            "--verbose""#,
  r#"        ],"#,
  r#"        ["#,
  r#"            "--help""#,
  r#"        ],"#,
  r#"        ["#,
  r#"            "--version""#,
  r#"        ]"#,
  r#"    ],"#,
  r#"    "option": ["#,
  r#"        ["#,
  r#"            "--interactive","#,
  r#"            "WHEN""#,
  r#"        ],"#,
  r#"        ["#,
  r#"            "--preserve-root","#,
  r#"            "all""#,
  r#"        ]"#,
  r#"    ]"#,
  r#"}"#,
  r#""#]

/-- data/sed.json -/
def t_sed : List String := [
  r#"{"#,
  r#"    "flag": ["#,
  r#"        ["#,
  r#"            "-n","#,
  r#"            "--quiet","#,
  r#"            "--silent""#,
  r#"        ],"#,
  r#"        ["#,
  r#"            "--debug""#,
  r#"        ],"#,
  r#"        ["#,
  r#"            "-e","#,
  r#"            "--expression""#,
  r#"        ],"#,
  r#"        ["#,
  r#"            "-f","#,
  r#"            "--file""#,
  r#"        ],"#,
  r#"        ["#,
  r#"            "--follow-symlinks""#,
  r#"        ],"#,
  r#"        ["#,
  r#"            "--posix""#,
  r#"        ],"#,
  r#"        ["#,
  r#"            "-E","#,
  r#"            "-r","#,
  r#"            "--regexp-extended""#,
  r#"        ],"#,
  r#"        ["#,
  r#"            "-s","#,
  r#"            "--separate""#,
  r#"        ],"#,
  r#"        ["#,
  r#"            "--sandbox""#,
  r#"        ],"#,
  r#"        ["#,
  r#"            "-u","#,
  r#"            "--unbuffered""#,
  r#"        ],"#,
  r#"        ["#,
  r#"            "-z","#,
  r#"            "--null-data""#,
  r#"        ],"#,
  r#"        ["#,
  r#"            "--help""#,
  r#"        ],"#,
  r#"        ["#,
  r#"            "--version""#,
  r#"        ]"#,
  r#"    ],"#,
  r#"    "option": ["#,
  r#"        ["#,
  r#"            "--in-place","#,
  r#"            "SUFFIX""#,
  r#"        ],"#,
  r#"        ["#,
  r#"            "-l","#,
  r#"            "N""#,
  r#"        ],"#,
  r#"        ["#,
  r#"            "--line-length","#,
  r#"            "N""#,
  r#"        ]"#,
  r#"    ]"#,
  r#"}"#,
  r#""#]

/-- data/seq.json -/
def t_seq : List String := [
  r#"{"#,
  r#"    "flag": ["#,
  r#"        ["#,
  r#"            "-w","#,
  r#"            "--equal-width""#,
  r#"        ],"#,
  r#"        ["#,
  r#"            "--help""#,
  r#"        ],"#,
  r#"        ["#,
  r#"            "--version""#,
  r#"        ]"#,
  r#"    ],"#,
  r#"    "option": ["#,
  r#"        ["#,
  r#"            "-f","#,
  r#"            "--format","#,
  r#"            "FORMAT""#,
  r#"        ],"#,
  r#"        ["#,
  r#"            "-s","#,
  r#"            "--separator","#,
  r#"            "STRING""#,
  r#"        ]"#,
  r#"    ]"#,
  r#"}"#,
  r#""#]

/-- data/sort.json -/
def t_sort : List String := [
  r#"{"#,
  r#"    "flag": ["#,
  r#"        ["#,
  r#"            "-b","#,
  r#"            "--ignore-leading-blanks""#,
  r#"        ],"#,
  r#"        ["#,
  r#"            "-d","#,
  r#"            "--dictionary-order""#,
  r#"        ],"#,
  r#"        ["#,
  r#"            "-f","#,
  r#"            "--ignore-case""#,
  r#"        ],"#,
  r#"        ["#,
  r#"            "-g","#,
  r#"            "--general-numeric-sort""#,
  r#"        ],"#,
  r#"        ["#,
  r#"            "-i","#,
  r#"            "--ignore-nonprinting""#,
  r#"        ],"#,
  r#"        ["#,
  r#"            "-M","#,
  r#"            "--month-sort""#,
  r#"        ],"#,
  r#"        ["#,
  r#"            "-h","#,
  r#"            "--human-numeric-sort""#,
  r#"        ],"#,
  r#"        ["#,
  r#"            "-n","#,
  r#"            "--numeric-sort""#,
  r#"        ],"#,
  r#"        ["#,
  r#"            "-R","#,
  r#"            "--random-sort""#,
  r#"        ],"#,
  r#"        ["#,
  r#"            "-r","#,
  r#"            "--reverse""#,
  r#"        ],"#,
  r#"        ["#,
  r#"            "-V","#,
  r#"            "--version-sort""#,
  r#"        ],"#,
  r#"        ["#,
  r#"            "-c","#,
  r#"            "--check""#,
  r#"        ],"#,
  r#"        ["#,
  r#"            "-C""#,
  r#"        ],"#,
  r#"        ["#,
  r#"            "--debug""#,
  r#"        ],"#,
  r#"        ["#,
  r#"            "-m","#,
  r#"            "--merge""#,
  r#"        ],"#,
  r#"        ["#,
  r#"            "-s","#,
  r#"            "--stable""#,
  r#"        ],"#,
  r#"        ["#,
  r#"            "-u","#,
  r#"            "--unique""#,
  r#"        ],"#,
  r#"        ["#,
  r#"            "-z","#,
  r#"            "--zero-terminated""#,
  r#"        ],"#,
  r#"        ["#,
  r#"            "--help""#,
  r#"        ],"#,
  r#"        ["#,
  r#"            "--version""#,
  r#"        ]"#,
  r#"    ],"#,
  r#"    "option": ["#,
  r#"        ["#,
  r#"            "--random-source","#,
  r#"            ["FILE", "CONFIG_INPUT"]"#,
  r#"        ],"#,
  r#"        ["#,
  r#"            "--sort","#,
  r#"            "WORD""#,
  r#"        ],"#,
  r#"        ["#,
  r#"            "--batch-size","#,
  r#"            "NMERGE""#,
  r#"        ],"#,
  r#"        ["#,
  r#"            "--compress-program","#,
  r#"            "PROG""#,
  r#"        ],"#,
  r#"        ["#,
  r#"            "--files0-from","#,
  r#"            ["FILE", "CONTAINER_FOR_INPUT"]"#,
  r#"        ],"#,
  r#"        ["#,
  r#"            "-k","#,
  r#"            "--key","#,
  r#"            "KEYDEF""#,
  r#"        ],"#,
  r#"        ["#,
  r#"            "-o","#,
  r#"            "--output","#,
  r#"            ["FILE", "STREAM_OUTPUT"]"#,
  r#"        ],"#,
  r#"        ["#,
  r#"            "-S","#,
  r#"            "--buffer-size","#,
  r#"            "SIZE""#,
  r#"        ],"#,
  r#"        ["#,
  r#"            "-t","#,
  r#"            "--field-separator","#,
  r#"            "SEP""#,
  r#"        ],"#,
  r#"        ["#,
  r#"            "-T","#,
  r#"            "--temporary-directory","#,
  r#"            ["DIR", "OTHER_OUTPUT"]"#,
  r#"        ],"#,
  r#"        ["#,
  r#"            "--parallel","#,
  r#"            "N""#,
  r#"        ]"#,
  r#"    ]"#,
  r#"}"#,
  r#""#]

/-- data/tail.json -/
def t_tail : List String := [
  r#"{"#,
  r#"    "flag": ["#,
  r#"        ["#,
  r#"            "-c","#,
  r#"            "--bytes""#,
  r#"        ],"#,
  r#"        ["#,
  r#"            "-f","#,
  r#"            "--follow""#,
  r#"        ],"#,
  r#"        ["#,
  r#"            "-n","#,
  r#"            "--lines""#,
  r#"        ],"#,
  r#"        ["#,
  r#"            "-q","#,
  r#"            "--quiet","#,
  r#"            "--silent""#,
  r#"        ],"#,
  r#"        ["#,
  r#"            "--retry""#,
  r#"        ],"#,
  r#"        ["#,
  r#"            "-s""#,
  r#"        ],"#,
  r#"        ["#,
  r#"            "-v","#,
  r#"            "--verbose""#,
  r#"        ],"#,
  r#"        ["#,
  r#"            "-z","#,
  r#"            "--zero-terminated""#,
  r#"        ],"#,
  r#"        ["#,
  r#"            "--help""#,
  r#"        ],"#,
  r#"        ["#,
  r#"            "--version""#,
  r#"        ]"#,
  r#"    ],"#,
  r#"    "option": ["#,
  r#"        ["#,
  r#"            "--max-unchanged-stats","#,
  r#"            "N""#,
  r#"        ],"#,
  r#"        ["#,
  r#"            "--pid","#,
  r#"            "PID""#,
  r#"        ],"#,
  r#"        ["#,
  r#"            "--sleep-interval","#,
  r#"            "N""#,
  r#"        ]"#,
  r#"    ]"#,
  r#"}"#,
  r#""#]

/-- data/tee.json -/
def t_tee : List String := [
  r#"{"#,
  r#"    "flag": ["#,
  r#"        ["#,
  r#"            "-a","#,
  r#"            "--append""#,
  r#"        ],"#,
  r#"        ["#,
  r#"            "-i","#,
  r#"            "--ignore-interrupts""#,
  r#"        ],"#,
  r#"        ["#,
  r#"            "-p""#,
  r#"        ],"#,
  r#"        ["#,
  r#"            "--help""#,
  r#"        ],"#,
  r#"        ["#,
  r#"            "--version""#,
  r#"        ]"#,
  r#"    ],"#,
  r#"    "option": ["#,
  r#"        ["#,
  r#"            "--output-error","#,
  r#"            "MODE""#,
  r#"        ]"#,
  r#"    ]"#,
  r#"}"#,
  r#""#]

/-- data/tr.json -/
def t_tr : List String := [
  r#"{"#,
  r#"    "flag": ["#,
  r#"        ["#,
  r#"            "-c","#,
  r#"            "-C","#,
  r#"            "--complement""#,
  r#"        ],"#,
  r#"        ["#,
  r#"            "-d","#,
  r#"            "--delete""#,
  r#"        ],"#,
  r#"        ["#,
  r#"            "-s","#,
  r#"            "--squeeze-repeats""#,
  r#"        ],"#,
  r#"        ["#,
  r#"            "-t""#,
  r#"        ],"#,
  r#"        ["#,
  r#"            "--help""#,
  r#"        ],"#,
  r#"        ["#,
  r#"            "--version""#,
  r#"        ]"#,
  r#"    ],"#,
  r#"    "option": []"#,
  r#"}"#,
  r#""#]

/-- data/uniq.json -/
def t_uniq : List String := [
  r#"{"#,
  r#"    "flag": ["#,
  r#"        ["#,
  r#"            "-c","#,
  r#"            "--count""#,
  r#"        ],"#,
  r#"        ["#,
  r#"            "-d","#,
  r#"            "--repeated""#,
  r#"        ],"#,
  r#"        ["#,
  r#"            "-D""#,
  r#"        ],"#,
  r#"        "-f","#,
  r#"        ["#,
  r#"            "-i","#,
  r#"            "--ignore-case""#,
  r#"        ],"#,
  r#"        "-s","#,
  r#"        ["#,
  r#"            "-u","#,
  r#"            "--unique""#,
  r#"        ],"#,
  r#"        ["#,
  r#"            "-z","#,
  r#"            "--zero-terminated""#,
  r#"        ],"#,
  r#"        "-w","#,
  r#"        ["#,
  r#"            "--help""#,
  r#"        ],"#,
  r#"        ["#,
  r#"            "--version""#,
  r#"        ]"#,
  r#"    ],"#,
  r#"    "option": ["#,
  r#"        ["#,
  r#"            "--all-repeated","#,
  r#"            "METHOD""#,
  r#"        ],"#,
  r#"        ["#,
  r#"            "--skip-fields","#,
  r#"            "N""#,
  r#"        ],"#,
  r#"        ["#,
  r#"            "--group","#,
  r#"            "METHOD""#,
  r#"        ],"#,
  r#"        ["#,
  r#"            "--skip-chars","#,
  r#"            "N""#,
  r#"        ],"#,
  r#"        ["#,
  r#"            "--check-chars","#,
  r#"            "N""#,
  r#"        ]"#,
  r#"    ]"#,
  r#"}"#,
  r#""#]

/-- data/wc.json -/
def t_wc : List String := [
  r#"{"#,
  r#"    "flag": ["#,
  r#"        ["#,
  r#"            "-c","#,
  r#"            "--bytes""#,
  r#"        ],"#,
  r#"        ["#,
  r#"            "-m","#,
  r#"            "--chars""#,
  r#"        ],"#,
  r#"        ["#,
  r#"            "-l","#,
  r#"            "--lines""#,
  r#"        ],"#,
  r#"        ["#,
  r#"            "-L","#,
  r#"            "--max-line-length""#,
  r#"        ],"#,
  r#"        ["#,
  r#"            "-w","#,
  r#"            "--words""#,
  r#"        ],"#,
  r#"        ["#,
  r#"            "--help""#,
  r#"        ],"#,
  r#"        ["#,
  r#"            "--version""#,
  r#"        ]"#,
  r#"    ],"#,
  r#"    "option": ["#,
  r#"        ["#,
  r#"            "--files0-from","#,
  r#"            "GLOB""#,
  r#"        ]"#,
  r#"    ]"#,
  r#"}"#,
  r#""#]

/-- data/xargs.json -/
def t_xargs : List String := [
  r#"{"#,
  r#"    "flag": ["#,
  r#"        ["#,
  r#"            "--null""#,
  r#"        ],"#,
  r#"        ["#,
  r#"            "-o","#,
  r#"            "--open-tty""#,
  r#"        ],"#,
  r#"        ["#,
  r#"            "-p","#,
  r#"            "--interactive""#,
  r#"        ],"#,
  r#"        ["#,
  r#"            "--process-slot-var""#,
  r#"        ],"#,
  r#"        ["#,
  r#"            "-r","#,
  r#"            "--no-run-if-empty""#,
  r#"        ],"#,
  r#"        ["#,
  r#"            "-s","#,
  r#"            "--max-chars""#,
  r#"        ],"#,
  r#"        ["#,
  r#"            "--show-limits""#,
  r#"        ],"#,
  r#"        ["#,
  r#"            "-t","#,
  r#"            "--verbose""#,
  r#"        ],"#,
  r#"        ["#,
  r#"            "-x","#,
  r#"            "--exit""#,
  r#"        ],"#,
  r#"        ["#,
  r#"            "--help""#,
  r#"        ],"#,
  r#"        ["#,
  r#"            "--version""#,
  r#"        ]"#,
  r#"    ],"#,
  r#"    "option": ["#,
  r#"        ["#,
  r#"            "-a","#,
  r#"            "--arg-file","#,
  r#"            ["FILE", "OTHER_INPUT"]"#,
  r#"        ],"#,
  r#"        ["#,
  r#"            "--delimiter","#,
  r#"            "-d","#,
  r#"            "DELIM""#,
  r#"        ],"#,
  r#"        ["#,
  r#"            "-E","#,
  r#"            "-e","#,
  r#"            "--eof","#,
  r#"            "EOF_STR""#,
  r#"        ],"#,
  r#"        ["#,
  r#"            "-I","#,
  r#"            "-i","#,
  r#"            "--replace","#,
  r#"            "REPLACE-STR""#,
  r#"        ],"#,
  r#"        ["#,
  r#"            "-L","#,
  r#"            "-l","#,
  r#"            "--max-lines","#,
  r#"            "max-lines""#,
  r#"        ],"#,
  r#"        ["#,
  r#"            "-n","#,
  r#"            "--max-args","#,
  r#"            "max-args""#,
  r#"        ],"#,
  r#"        ["#,
  r#"            "-P","#,
  r#"            "--max-procs","#,
  r#"            "max-procs""#,
  r#"        ]"#,
  r#"    ]"#,
  r#"}"#,
  r#""#]

/-- The text with these lines. For the files that util_parser.py:9 reads. -/
def join : List String → List Char
  | [] => []
  | [l] => l.toList
  | l :: ls => l.toList ++ '\n' :: join ls

/-- The files in the data directory, by name without .json. For the files that util_parser.py:9 reads. -/
def table : List (String × List String) := [
  ("_default_data_for_commands", t_default_data_for_commands),
  ("awk", t_awk),
  ("cat", t_cat),
  ("col", t_col),
  ("comm", t_comm),
  ("custom_sort", t_custom_sort),
  ("custom_tr", t_custom_tr),
  ("cut", t_cut),
  ("diff", t_diff),
  ("export", t_export),
  ("grep", t_grep),
  ("head", t_head),
  ("mkfifo", t_mkfifo),
  ("mv", t_mv),
  ("rm", t_rm),
  ("sed", t_sed),
  ("seq", t_seq),
  ("sort", t_sort),
  ("tail", t_tail),
  ("tee", t_tee),
  ("tr", t_tr),
  ("uniq", t_uniq),
  ("wc", t_wc),
  ("xargs", t_xargs)]

end PashAnn.DataTexts
