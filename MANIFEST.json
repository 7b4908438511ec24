{
 "claims": [
  {
   "property": "C01",
   "status": "proved",
   "theorems": [
    "PashAnn.C01_quoting_round_trip",
    "PashAnn.C01_split_join",
    "PashAnn.C01_join_injective"
   ],
   "note": "Stated for the quoting of shlex.quote and shlex.join."
  },
  {
   "property": "C02",
   "status": "proved",
   "theorems": [
    "PashAnn.C02_split_ok_iff",
    "PashAnn.C02_rejection"
   ],
   "note": ""
  },
  {
   "property": "C03",
   "status": "proved",
   "theorems": [
    "PashAnn.C03_nothing_lost"
   ],
   "note": ""
  },
  {
   "property": "C04",
   "status": "proved",
   "theorems": [
    "PashAnn.C04_parse_iff_grammar",
    "PashAnn.C04_grammar_deterministic"
   ],
   "note": ""
  },
  {
   "property": "C05",
   "status": "proved",
   "theorems": [
    "PashAnn.C05_after_first_operand",
    "PashAnn.C05_trailing_option_exception"
   ],
   "note": "The exception in the statement (a trailing option name) is shown to be real."
  },
  {
   "property": "C06",
   "status": "proved",
   "theorems": [
    "PashAnn.C06_flag_synonyms"
   ],
   "note": ""
  },
  {
   "property": "C07",
   "status": "proved",
   "theorems": [
    "PashAnn.C07_option_synonyms",
    "PashAnn.C07_option_recognised"
   ],
   "note": ""
  },
  {
   "property": "C08",
   "status": "partial",
   "theorems": [
    "PashAnn.C08_cluster_not_separate",
    "PashAnn.C08_cluster_partial",
    "PashAnn.C08_cluster_spelling",
    "PashAnn.C08_cluster_exact"
   ],
   "note": "The claim is false of the code: letters of a cluster keep their spelling (tr -Cd). Negation proved; equality proved to hold exactly when every letter is its own canonical spelling (C08_cluster_exact); the exact difference proved in general."
  },
  {
   "property": "C09",
   "status": "proved",
   "theorems": [
    "PashAnn.C09_compositional"
   ],
   "note": ""
  },
  {
   "property": "C10",
   "status": "partial",
   "theorems": [
    "PashAnn.C10_uniq_file_name_is_flag",
    "PashAnn.C10_uniq_false",
    "PashAnn.C10_no_dash_operand_partial"
   ],
   "note": "False for uniq, whose database entry is a bare string (uniq f). Proved for all other words and commands."
  },
  {
   "property": "C11",
   "status": "proved",
   "theorems": [
    "PashAnn.C11_dashdash_and_equals",
    "PashAnn.C11_equals_not_split"
   ],
   "note": "The README's claim about equal signs is refuted by C11_equals_not_split."
  },
  {
   "property": "C12",
   "status": "partial",
   "theorems": [
    "PashAnn.C12_reparse_false",
    "PashAnn.C12_reparse_partial",
    "PashAnn.C12_reparse_exact",
    "PashAnn.C12_reparse_stable"
   ],
   "note": "False for clusters with non-canonical letters (grep -yv). Proved to hold exactly for results with canonical flags (C12_reparse_exact); in general re-reading canonicalises flags once and is then stable."
  },
  {
   "property": "C13",
   "status": "proved",
   "theorems": [
    "PashAnn.C13_options_typed"
   ],
   "note": ""
  },
  {
   "property": "C14",
   "status": "proved",
   "theorems": [
    "PashAnn.C14_typing_preserves"
   ],
   "note": ""
  },
  {
   "property": "C15",
   "status": "proved",
   "theorems": [
    "PashAnn.C15_dash",
    "PashAnn.C15_operand"
   ],
   "note": ""
  },
  {
   "property": "C16",
   "status": "proved",
   "theorems": [
    "PashAnn.C16_partition",
    "PashAnn.C16_names",
    "PashAnn.C16_predicates"
   ],
   "note": ""
  },
  {
   "property": "C17",
   "status": "proved",
   "theorems": [
    "PashAnn.C17_warning_exact"
   ],
   "note": ""
  },
  {
   "property": "C18",
   "status": "proved",
   "theorems": [
    "PashAnn.C18_other_outputs"
   ],
   "note": ""
  },
  {
   "property": "C19",
   "status": "proved",
   "theorems": [
    "PashAnn.C19_io_lookup",
    "PashAnn.C19_par_lookup"
   ],
   "note": ""
  },
  {
   "property": "C20",
   "status": "proved",
   "theorems": [
    "PashAnn.C20_refused"
   ],
   "note": ""
  },
  {
   "property": "C21",
   "status": "proved",
   "theorems": [
    "PashAnn.C21_implicit_streams"
   ],
   "note": ""
  },
  {
   "property": "C22",
   "status": "proved",
   "theorems": [
    "PashAnn.C22_filters"
   ],
   "note": ""
  },
  {
   "property": "C23",
   "status": "proved",
   "theorems": [
    "PashAnn.C23_grep_awk",
    "PashAnn.C23_output"
   ],
   "note": ""
  },
  {
   "property": "C24",
   "status": "proved",
   "theorems": [
    "PashAnn.C24_sort"
   ],
   "note": ""
  },
  {
   "property": "C25",
   "status": "proved",
   "theorems": [
    "PashAnn.C25_mv",
    "PashAnn.C25_others"
   ],
   "note": ""
  },
  {
   "property": "C26",
   "status": "partial",
   "theorems": [
    "PashAnn.C26_false_for_sed",
    "PashAnn.C26_false_for_others",
    "PashAnn.C26_stdin_claim_false",
    "PashAnn.C26_stdin_claim_partial",
    "PashAnn.C26_exact"
   ],
   "note": "False for sed, alt_bigrams_aux, bigrams_aux, col, test_one and test_two, which always claim standard input (refuted for all their invocations). Proved for every other command; exact in C26_exact."
  },
  {
   "property": "C27",
   "status": "partial",
   "theorems": [
    "PashAnn.C27_false_for_tail",
    "PashAnn.C27_false_for_sed",
    "PashAnn.C27_declared_option_partial"
   ],
   "note": "False for tail -n N FILE and sed -e SCRIPT FILE, for all N, SCRIPT and FILE (refuted). Proved for every option the database declares with an argument."
  },
  {
   "property": "C28",
   "status": "proved",
   "theorems": [
    "PashAnn.C28_round_robin"
   ],
   "note": ""
  },
  {
   "property": "C29",
   "status": "proved",
   "theorems": [
    "PashAnn.C29_round_robin_chunks"
   ],
   "note": ""
  },
  {
   "property": "C30",
   "status": "proved",
   "theorems": [
    "PashAnn.C30_only_implemented",
    "PashAnn.C30_unimplemented_gives_nothing",
    "PashAnn.C30_who_offers_unimplemented",
    "PashAnn.C30_grep_all_implemented"
   ],
   "note": ""
  },
  {
   "property": "C31",
   "status": "proved",
   "theorems": [
    "PashAnn.C31_grep_decision"
   ],
   "note": ""
  },
  {
   "property": "C32",
   "status": "partial",
   "theorems": [
    "PashAnn.C32_context_split_false",
    "PashAnn.C32_context_split_partial",
    "PashAnn.C32_long_false"
   ],
   "note": "False for every grep invocation with -A, -B, -C or -m and without -q (refuted for all of them), and the long spellings are not looked at at all (C32_long_false). Proved: with such an option nothing is offered exactly if -q is given."
  },
  {
   "property": "C33",
   "status": "proved",
   "theorems": [
    "PashAnn.C33_sort_decision"
   ],
   "note": ""
  },
  {
   "property": "C34",
   "status": "proved",
   "theorems": [
    "PashAnn.C34_merge_flags"
   ],
   "note": ""
  },
  {
   "property": "C35",
   "status": "partial",
   "theorems": [
    "PashAnn.C35_newline_false",
    "PashAnn.C35_leading_newline_false",
    "PashAnn.C35_newline_partial",
    "PashAnn.C35_exact"
   ],
   "note": "False when the last set starts with the newline escape (tr -d of a set starting with backslash n). Proved when the escape occurs later in the set and the set is not complemented; exact in C35_exact."
  },
  {
   "property": "C36",
   "status": "proved",
   "theorems": [
    "PashAnn.C36_uniq",
    "PashAnn.C36_sed"
   ],
   "note": ""
  },
  {
   "property": "C37",
   "status": "proved",
   "theorems": [
    "PashAnn.C37_synonyms"
   ],
   "note": ""
  },
  {
   "property": "C38",
   "status": "proved",
   "theorems": [
    "PashAnn.C38_inferred"
   ],
   "note": ""
  },
  {
   "property": "C39",
   "status": "partial",
   "theorems": [
    "PashAnn.C39_repeated_false",
    "PashAnn.C39_sort_false",
    "PashAnn.C39_repeated_partial",
    "PashAnn.C39_exact",
    "PashAnn.C39_other_commands_partial"
   ],
   "note": "False for sort: each call appends another copy to the stored list (exact growth proved). Proved for all non-commutative information, hence for every command other than sort and custom_sort; exact in C39_exact."
  },
  {
   "property": "C40",
   "status": "proved",
   "theorems": [
    "PashAnn.C40_substitute",
    "PashAnn.C40_mapper",
    "PashAnn.C40_output_in_option_false"
   ],
   "note": "For operands and implicit streams, as stated; an output held by an option is rejected (C40_output_in_option_false)."
  },
  {
   "property": "C41",
   "status": "proved",
   "theorems": [
    "PashAnn.C41_consistent",
    "PashAnn.C41_history",
    "PashAnn.C41_needs_fresh"
   ],
   "note": "For any history of substitutions; that the variables must be fresh is shown by C41_needs_fresh."
  },
  {
   "property": "C42",
   "status": "partial",
   "theorems": [
    "PashAnn.C42_exact_inputs",
    "PashAnn.C42_exact_outputs",
    "PashAnn.C42_all_used",
    "PashAnn.C42_numbers_partial",
    "PashAnn.C42_rejected_partial",
    "PashAnn.C42_needs_fresh"
   ],
   "note": "False if the given variables may already occur in the invocation (refuted). Proved, with the exceptions raised, for variables new to the invocation. For any variables whatsoever C42_exact_inputs and C42_exact_outputs say exactly what is raised and what is returned."
  },
  {
   "property": "C43",
   "status": "proved",
   "theorems": [
    "PashAnn.C43_read_back"
   ],
   "note": ""
  },
  {
   "property": "C44",
   "status": "partial",
   "theorems": [
    "PashAnn.C44_reading",
    "PashAnn.C44_undescribed",
    "PashAnn.C44_option_variables_false",
    "PashAnn.C44_complete_partial"
   ],
   "note": "Purity proved for all. Completeness is false for variables held by OptionWithIOVar options, which are never reported (refuted for all of them); proved for all other occurrences."
  },
  {
   "property": "C45",
   "status": "partial",
   "theorems": [
    "PashAnn.C45_outcome",
    "PashAnn.C45_rename_partial",
    "PashAnn.C45_no_op",
    "PashAnn.C45_rejected",
    "PashAnn.C45_returns_partial",
    "PashAnn.C45_option_variables_false"
   ],
   "note": "False for variables held by OptionWithIOVar options, and a variable occurring twice is rejected (both proved). Proved for every invocation on which renaming returns, for all other occurrences; when it returns is C45_outcome."
  },
  {
   "property": "C46",
   "status": "proved",
   "theorems": [
    "PashAnn.C46_outcome",
    "PashAnn.C46_remove",
    "PashAnn.C46_returns",
    "PashAnn.C46_not_returning"
   ],
   "note": "C46_outcome says exactly when removal returns and what it raises otherwise; C46_returns says what it returns, for every invocation."
  },
  {
   "property": "C47",
   "status": "proved",
   "theorems": [
    "PashAnn.C47_concatenate",
    "PashAnn.C47_read_back"
   ],
   "note": ""
  },
  {
   "property": "C48",
   "status": "partial",
   "theorems": [
    "PashAnn.C48_two_inputs",
    "PashAnn.C48_transformed_partial",
    "PashAnn.C48_fresh",
    "PashAnn.C48_clash",
    "PashAnn.C48_no_output_false",
    "PashAnn.C48_stale_entries",
    "PashAnn.C48_text",
    "PashAnn.C48_exact",
    "PashAnn.C48_made"
   ],
   "note": "False if the original command has no implicit streaming output: the given output is dropped (refuted). Proved for commands with one. C48_exact says exactly when such an aggregator exists and C48_made what it is whenever it does, for every command and kind. C48_text is about aggregators given as the text of a command."
  },
  {
   "property": "C49",
   "status": "proved",
   "theorems": [
    "PashAnn.C49_mapper",
    "PashAnn.C49_mapper_rejected",
    "PashAnn.C49_mapper_exists",
    "PashAnn.C49_mapper_operands",
    "PashAnn.C49_stale_entries",
    "PashAnn.C49_aggregator",
    "PashAnn.C49_aggregator_rejected"
   ],
   "note": ""
  },
  {
   "property": "C50",
   "status": "proved",
   "theorems": [
    "PashAnn.C50_fold",
    "PashAnn.C50_constant",
    "PashAnn.C50_remove_filter",
    "PashAnn.C50_add",
    "PashAnn.C50_add_flags",
    "PashAnn.C50_add_contents",
    "PashAnn.C50_add_repeats",
    "PashAnn.C50_chain",
    "PashAnn.C50_idempotent",
    "PashAnn.C50_defaults"
   ],
   "note": "Add never removes duplicates inside the list to add (C50_add_repeats)."
  },
  {
   "property": "C51",
   "status": "proved",
   "theorems": [
    "PashAnn.C51_deduplication",
    "PashAnn.C51_stable"
   ],
   "note": ""
  },
  {
   "property": "C52",
   "status": "partial",
   "theorems": [
    "PashAnn.C52_defined",
    "PashAnn.C52_unknown",
    "PashAnn.C52_append",
    "PashAnn.C52_injective_false",
    "PashAnn.C52_injective_partial"
   ],
   "note": "Domain and compositionality proved. Injectivity is false (escapes and plain characters have the same text, for every character); proved for words without escapes whose texts do not contain the delimiters."
  },
  {
   "property": "C53",
   "status": "proved",
   "theorems": [
    "PashAnn.C53_chunks",
    "PashAnn.C53_executable",
    "PashAnn.C53_necessary",
    "PashAnn.C53_filters",
    "PashAnn.C53_offered",
    "PashAnn.C53_exact"
   ],
   "note": "That the condition is needed is C53_necessary; that executions exist is C53_executable."
  },
  {
   "property": "C54",
   "status": "partial",
   "theorems": [
    "PashAnn.C54_context_exact",
    "PashAnn.C54_limit_exact",
    "PashAnn.C54_count_exact",
    "PashAnn.C54_listed_exact",
    "PashAnn.C54_unlisted_exact",
    "PashAnn.C54_numbers_exact",
    "PashAnn.C54_grep_partial",
    "PashAnn.C54_context_false",
    "PashAnn.C54_limit_false"
   ],
   "note": "False for -A, -B and -C (refuted) and for -m with every limit of at least one (refuted for all programs as in the manual). Proved for every other invocation that is offered anything and has only options that the description of the program covers (Covered, Spec/Streams.lean), except with -z, for which see C70. C54_limit_exact says for which inputs and splits -m is right, C54_context_exact for which -A, -B and -C are. With one of these four, -c, -l, -L, -n and -b are offered something as well: C54_count_exact, C54_listed_exact, C54_unlisted_exact and C54_numbers_exact say when that is right."
  },
  {
   "property": "C55",
   "status": "proved",
   "theorems": [
    "PashAnn.C55_sort",
    "PashAnn.C55_executable",
    "PashAnn.C55_random_offered"
   ],
   "note": "Under the hypothesis that the options determine a total order, as stated. sort --sort random does not meet it and is offered all the same (C55_random_offered)."
  },
  {
   "property": "C56",
   "status": "partial",
   "theorems": [
    "PashAnn.C56_group_exact",
    "PashAnn.C56_uniq_partial",
    "PashAnn.C56_executable",
    "PashAnn.C56_unique_false",
    "PashAnn.C56_group_false",
    "PashAnn.C56_unique_partial",
    "PashAnn.C56_unique_exact",
    "PashAnn.C56_unique_parts_exact"
   ],
   "note": "False for -u (refuted for all programs as in the manual and all lines) and for --group other than separate (refuted). Proved otherwise, for all splits and all orders of joining, for the options that the description of the program covers, except for -z (streams are lists of lines; see C70_uniq_false) and -c (the function to apply is not implemented in the code). For -u, C56_unique_partial proves it for parts that share no lines that compare equal, and C56_unique_exact (two parts) and C56_unique_parts_exact (any number of parts, any order of joining) say for which cuts of an input with equal lines adjacent it is right. For --group with prepend, append or both, C56_group_exact: it is right exactly when at most one part is not empty."
  },
  {
   "property": "C57",
   "status": "partial",
   "theorems": [
    "PashAnn.Cli.C57_overwrites_false",
    "PashAnn.Cli.C57_new_file_false",
    "PashAnn.Cli.C57_delivery_partial",
    "PashAnn.Cli.C57_relative_false"
   ],
   "note": "False: an existing file is overwritten, a new one is not written (both proved for all states). Proved: the result is delivered exactly once and no other file changes."
  },
  {
   "property": "C58",
   "status": "partial",
   "theorems": [
    "PashAnn.C58_refl",
    "PashAnn.C58_symm",
    "PashAnn.C58_trans",
    "PashAnn.C58_initial",
    "PashAnn.C58_with_io",
    "PashAnn.C58_io_vars_partial",
    "PashAnn.C58_classes",
    "PashAnn.C58_options_false",
    "PashAnn.C58_parallelizer",
    "PashAnn.C58_prefix"
   ],
   "note": "Equivalence relation proved for all values; equality of contents proved for parsed and typed invocations and parallelizers. False for invocations with OptionWithIOVar options, which are compared by identity (refuted for all of them); proved when such options are the same objects."
  },
  {
   "property": "C59",
   "status": "proved",
   "theorems": [
    "PashAnn.Cli.C59_report_total",
    "PashAnn.Cli.C59_report_faithful",
    "PashAnn.Cli.C59_reasons",
    "PashAnn.Cli.C59_text"
   ],
   "note": ""
  },
  {
   "property": "C60",
   "status": "proved",
   "theorems": [
    "PashAnn.C60_rename_back",
    "PashAnn.C60_needs_fresh"
   ],
   "note": ""
  },
  {
   "property": "C61",
   "status": "proved",
   "theorems": [
    "PashAnn.C61_substitute_twice"
   ],
   "note": ""
  },
  {
   "property": "C62",
   "status": "proved",
   "theorems": [
    "PashAnn.C62_remove_inputs",
    "PashAnn.C62_remove_outputs",
    "PashAnn.C62_commute"
   ],
   "note": ""
  },
  {
   "property": "C63",
   "status": "proved",
   "theorems": [
    "PashAnn.C63_table",
    "PashAnn.C63_unambiguous",
    "PashAnn.C63_complete"
   ],
   "note": ""
  },
  {
   "property": "C64",
   "status": "proved",
   "theorems": [
    "PashAnn.C64_table",
    "PashAnn.C64_unambiguous"
   ],
   "note": ""
  },
  {
   "property": "C65",
   "status": "partial",
   "theorems": [
    "PashAnn.C65_cut_partial",
    "PashAnn.C65_newline_false"
   ],
   "note": "False if the newline delimits the fields (refuted for all programs as in the manual). Proved for all other cut invocations with covered options and without -z, for which see C70."
  },
  {
   "property": "C66",
   "status": "partial",
   "theorems": [
    "PashAnn.C66_exact",
    "PashAnn.C66_tr_partial",
    "PashAnn.C66_translate_delete",
    "PashAnn.C66_squeeze_false"
   ],
   "note": "False for tr -s with the newline escape as last set (refuted for all programs as in the manual). Proved when nothing is squeezed across an end of line; C66_exact says that this is the exact condition. Only usages that tr accepts are described (TrUsage)."
  },
  {
   "property": "C67",
   "status": "partial",
   "theorems": [
    "PashAnn.C67_sed_partial",
    "PashAnn.C67_numbered_false",
    "PashAnn.C67_last_false",
    "PashAnn.C67_exact"
   ],
   "note": "False for scripts with line numbers or $ before a command, which are offered (refuted for all of them). Proved for scripts that act on each line by itself. C67_exact: for every script it holds exactly if the output for a concatenation is the concatenation of the outputs."
  },
  {
   "property": "C68",
   "status": "partial",
   "theorems": [
    "PashAnn.C68_batches_partial",
    "PashAnn.C68_batches_exact",
    "PashAnn.C68_line_batches_partial",
    "PashAnn.C68_line_batches_exact",
    "PashAnn.C68_xargs_partial",
    "PashAnn.C68_lines_partial",
    "PashAnn.C68_batch_false",
    "PashAnn.C68_empty_false"
   ],
   "note": "False if the command is run for several words at once and for empty parts without -r (both refuted for all programs as in the manual). Proved for one run per word (-n 1) and per line (-L 1). For -n K with any K and parts that all have words, C68_batches_exact says for which parts it holds, and for -L K C68_line_batches_exact."
  },
  {
   "property": "C69",
   "status": "partial",
   "theorems": [
    "PashAnn.C69_bigrams_exact",
    "PashAnn.C69_summary",
    "PashAnn.C69_bigrams_partial",
    "PashAnn.C69_executable",
    "PashAnn.C69_empty_part_false",
    "PashAnn.C69_access"
   ],
   "note": "The general statement is proved (C69_summary). bigrams_aux: false for empty parts (refuted for all programs as described), proved for non-empty parts. C69_bigrams_exact: for a non-empty input it is right exactly if no part is empty."
  },
  {
   "property": "C70",
   "status": "partial",
   "theorems": [
    "PashAnn.C70_uniq_false",
    "PashAnn.C70_sed_exact",
    "PashAnn.C70_xargs_exact",
    "PashAnn.C70_grep_exact",
    "PashAnn.C70_records_partial",
    "PashAnn.C70_grep_false",
    "PashAnn.C70_cut_false"
   ],
   "note": "False for grep, cut and uniq (refuted for all programs as in the manual); proved for parts that do not end inside a record. C70_grep_exact, C70_sed_exact and C70_xargs_exact say exactly when all splits at newlines are right: never if grep finds anything, and for sed and xargs -n 1 -r only if a newline in a record makes no difference. Other scripts of sed and other batches of xargs are not covered."
  },
  {
   "property": "C71",
   "status": "proved",
   "theorems": [
    "PashAnn.C71_once",
    "PashAnn.C71_from_page",
    "PashAnn.C71_page_once",
    "PashAnn.C71_page_source",
    "PashAnn.C71_page_others",
    "PashAnn.C71_page_lines"
   ],
   "note": ""
  },
  {
   "property": "C72",
   "status": "partial",
   "theorems": [
    "PashAnn.C72_layout",
    "PashAnn.C72_flags_partial",
    "PashAnn.C72_options",
    "PashAnn.C72_mixed",
    "PashAnn.C72_options_false",
    "PashAnn.C72_mixed_false",
    "PashAnn.C72_digit_false",
    "PashAnn.C72_uniq_shipped"
   ],
   "note": "Proved for lines of flags, in any layout (C72_layout). False for options (each spelling becomes an option of its own), for a flag beside an option (not declared at all) and for names with digits (dropped). C72_uniq_shipped: uniq.json is the script's output with exactly these mistakes."
  },
  {
   "property": "C73",
   "status": "proved",
   "theorems": [
    "PashAnn.C73_only_announced_changes",
    "PashAnn.C73_independent",
    "PashAnn.C73_no_broken_object"
   ],
   "note": "For clients that use methods and do not reach into the fields of an invocation."
  },
  {
   "property": "C74",
   "status": "proved",
   "theorems": [
    "PashAnn.C74_substitute",
    "PashAnn.C74_substitute_same_list",
    "PashAnn.C74_replace_var",
    "PashAnn.C74_remove_inputs",
    "PashAnn.C74_remove_outputs",
    "PashAnn.C74_generate_inputs",
    "PashAnn.C74_generate_outputs",
    "PashAnn.C74_has_other_outputs"
   ],
   "note": ""
  },
  {
   "property": "C75",
   "status": "proved",
   "theorems": [
    "PashAnn.C75_construct",
    "PashAnn.C75_mapper",
    "PashAnn.C75_aggregator",
    "PashAnn.C75_cat"
   ],
   "note": ""
  },
  {
   "property": "C76",
   "status": "partial",
   "theorems": [
    "PashAnn.C76_raising_changes_nothing_false",
    "PashAnn.C76_unusable_after_exception",
    "PashAnn.C76_raising_partial"
   ],
   "note": "False for substitute, replace_var and the removing methods: the receiver and the lists of new variables can be left half changed (C76_raising_changes_nothing_false), and the receiver can be left unusable (C76_unusable_after_exception). Proved for everything else, in every history."
  },
  {
   "property": "C77",
   "status": "partial",
   "theorems": [
    "PashAnn.C77_plain_lines_partial",
    "PashAnn.C77_synonyms_partial",
    "PashAnn.C77_swallowing_false",
    "PashAnn.C77_leaving_false",
    "PashAnn.C77_unknown_false",
    "PashAnn.C77_grep_false",
    "PashAnn.C77_uniq_false",
    "PashAnn.C77_sed_false",
    "PashAnn.C77_awk_false",
    "PashAnn.C77_tail_false"
   ],
   "note": "False for the spellings in the lists swallowing, leaving, unknown and apart of Spec/Manual.lean, for each of which the wrong reading is proved for all lines; proved for every other spelling in the manuals."
  },
  {
   "property": "C78",
   "status": "partial",
   "theorems": [
    "PashAnn.C78_reads_announced_partial",
    "PashAnn.C78_announced_read_partial",
    "PashAnn.C78_assignment_false"
   ],
   "note": "False for assignments of awk (announced as files); also not claimed for operands of col, the starting file of diff, and spellings misread by C77. Proved in both directions otherwise. Reads caused by scripts or directory contents are outside the specification."
  },
  {
   "property": "C79",
   "status": "partial",
   "theorems": [
    "PashAnn.C79_writes_announced_partial",
    "PashAnn.C79_announced_written",
    "PashAnn.C79_mv_false",
    "PashAnn.C79_sed_awk_false",
    "PashAnn.C79_dash_false"
   ],
   "note": "False for sources of mv, sed in place, files that awk writes on request, and a file called '-' (all refuted). Nothing that is not written is announced (C79_announced_written)."
  },
  {
   "property": "C80",
   "status": "partial",
   "theorems": [
    "PashAnn.C80_stdin_announced_partial",
    "PashAnn.C80_stdin_read_partial",
    "PashAnn.C80_assignment_false",
    "PashAnn.C80_unread_false"
   ],
   "note": "False for awk with only assignments, xargs -a and grep -r without files (refuted), and sed (C26)."
  },
  {
   "property": "C81",
   "status": "partial",
   "theorems": [
    "PashAnn.C81_stdout_announced_partial",
    "PashAnn.C81_stdout_written_partial",
    "PashAnn.C81_verbose_false"
   ],
   "note": "False for the verbose output of mv and rm (refuted), help texts, and outputs called '-' (C79_dash_false)."
  },
  {
   "property": "C82",
   "status": "proved",
   "theorems": [
    "PashAnn.C82_plan",
    "PashAnn.C82_makers",
    "PashAnn.C82_mapper_spec",
    "PashAnn.C82_mapper_makers",
    "PashAnn.C82_built",
    "PashAnn.C82_information",
    "PashAnn.C82_unwrapped"
   ],
   "note": ""
  },
  {
   "property": "C83",
   "status": "partial",
   "theorems": [
    "PashAnn.C83_texts_differ_false",
    "PashAnn.C83_command_lines_false",
    "PashAnn.C83_typed_texts_differ_false",
    "PashAnn.C83_parsed_texts_differ_partial",
    "PashAnn.C83_parsed_exact",
    "PashAnn.C83_typed_texts_differ_partial"
   ],
   "note": "False for operands that contain a comma and a space, for a single empty operand, and for typed names with line breaks (refuted for all such names). Proved otherwise."
  },
  {
   "property": "C84",
   "status": "partial",
   "theorems": [
    "PashAnn.C84_queries",
    "PashAnn.C84_partition",
    "PashAnn.C84_warning",
    "PashAnn.C84_variables_false",
    "PashAnn.C84_files_partial",
    "PashAnn.C84_inputs",
    "PashAnn.C84_config_inputs_false"
   ],
   "note": "Proved for invocations without variables. False for invocations with variables, whose queries find no variable (C84_variables_false), and for the configuration inputs of generate_inputs (C84_config_inputs_false)."
  },
  {
   "property": "C85",
   "status": "partial",
   "theorems": [
    "PashAnn.C85_not_looked_at_false",
    "PashAnn.C85_concatenate_false",
    "PashAnn.C85_uniq_false",
    "PashAnn.C85_sort_false",
    "PashAnn.C85_covered_or_listed"
   ],
   "note": "False: such requests are not looked at, for any command (C85_not_looked_at_false), and every plan that is offered gives a wrong output (refuted for concatenating plans, for uniq and for sort). Proved: which other flags and options the specifications of programs leave out."
  },
  {
   "property": "C86",
   "status": "proved",
   "theorems": [
    "PashAnn.C86_plans",
    "PashAnn.C86_plans_order",
    "PashAnn.C86_consulted_needed",
    "PashAnn.C86_reading"
   ],
   "note": ""
  },
  {
   "property": "C87",
   "status": "partial",
   "theorems": [
    "PashAnn.C87_plans_differ_false",
    "PashAnn.C87_no_name_false",
    "PashAnn.C87_plans_differ_partial",
    "PashAnn.C87_infos_differ_partial",
    "PashAnn.C87_commands",
    "PashAnn.C87_reports_partial",
    "PashAnn.C87_names_literal"
   ],
   "note": "False for plans that differ only in the number of extra pipes or in what the splitter tells the mapper, and for a mapper called None (refuted). Proved otherwise, for names on one line; proved without exception for what the library says about commands (C87_commands). Options with variables inside a transformer are printed with their address, which is not modelled."
  },
  {
   "property": "C88",
   "status": "partial",
   "theorems": [
    "PashAnn.C88_operands_partial",
    "PashAnn.C88_operands_exact",
    "PashAnn.C88_streaming_inputs_false",
    "PashAnn.C88_raises",
    "PashAnn.C88_streams",
    "PashAnn.C88_retract_false",
    "PashAnn.C88_shipped"
   ],
   "note": "False for the methods about streaming inputs, which do nothing, and for retracting with False (both refuted). Proved for histories in which no call says streaming input after another one said something else, which all shipped generators meet (C88_shipped); C88_operands_exact and C88_streams cover all histories."
  },
  {
   "property": "C89",
   "status": "partial",
   "theorems": [
    "PashAnn.C89_methods",
    "PashAnn.C89_questions",
    "PashAnn.C89_makers",
    "PashAnn.C89_defaults",
    "PashAnn.C89_splitters",
    "PashAnn.C89_adjf_false",
    "PashAnn.C89_obtained_partial",
    "PashAnn.C89_nodes",
    "PashAnn.C89_simple",
    "PashAnn.C89_simple_raises",
    "PashAnn.C89_shipped"
   ],
   "note": "False for functions of adjacent lines that are said to be implemented: asking for the aggregator raises for every text, command and streams (C89_adjf_false). The rest proved."
  },
  {
   "property": "C90",
   "status": "partial",
   "theorems": [
    "PashAnn.C90_written",
    "PashAnn.C90_grep_partial",
    "PashAnn.C90_sort",
    "PashAnn.C90_uniq_partial",
    "PashAnn.C90_cut_partial",
    "PashAnn.C90_sed_partial",
    "PashAnn.C90_xargs_partial",
    "PashAnn.C90_tr_partial",
    "PashAnn.C90_runs",
    "PashAnn.C90_variables",
    "PashAnn.C90_programs"
   ],
   "note": "Without exception for sort (C90_sort), if the options determine an order. For the other commands without the options for which it is false (C54, C56, C65-C68), without -z, and for sed, tr and xargs for the scripts, sets and batches of C66-C68. Options written with the exceptional spellings of C78 are not covered."
  },
  {
   "property": "C91",
   "status": "proved",
   "theorems": [
    "PashAnn.C91_names",
    "PashAnn.C91_elsewhere",
    "PashAnn.C91_through_file",
    "PashAnn.C91_here",
    "PashAnn.C91_not_annotated",
    "PashAnn.C91_plain"
   ],
   "note": ""
  },
  {
   "property": "C92",
   "status": "proved",
   "theorems": [
    "PashAnn.C92_last",
    "PashAnn.C92_initial",
    "PashAnn.C92_own"
   ],
   "note": ""
  },
  {
   "property": "C93",
   "status": "proved",
   "theorems": [
    "PashAnn.C93_mapper",
    "PashAnn.C93_nested",
    "PashAnn.C93_sort",
    "PashAnn.C93_grep",
    "PashAnn.C93_uniq",
    "PashAnn.C93_cut",
    "PashAnn.C93_sed",
    "PashAnn.C93_exists",
    "PashAnn.C93_concatenation_runs",
    "PashAnn.C93_bigrams"
   ],
   "note": ""
  },
  {
   "property": "C94",
   "status": "proved",
   "theorems": [
    "PashAnn.C94_pipeline",
    "PashAnn.C94_runs",
    "PashAnn.C94_manual",
    "PashAnn.C94_lines",
    "PashAnn.C94_sort_inside"
   ],
   "note": ""
  },
  {
   "property": "C95",
   "status": "proved",
   "theorems": [
    "PashAnn.C95_every_schedule",
    "PashAnn.C95_ends",
    "PashAnn.C95_asking",
    "PashAnn.C95_asking_while_changing_false"
   ],
   "note": "An access to an attribute or to the dictionary is one turn; copying the dictionary counts as one access. That the condition is needed is C95_asking_while_changing_false: the methods that ask write back what they read."
  },
  {
   "property": "C96",
   "status": "partial",
   "theorems": [
    "PashAnn.C96_stopped_partial",
    "PashAnn.C96_lost_false",
    "PashAnn.C96_many",
    "PashAnn.C96_apart_partial",
    "PashAnn.C96_mixed_false",
    "PashAnn.C96_ends"
   ],
   "note": "False for the contents of the file: a run that is stopped after it has opened an existing file leaves any beginning of the report (C96_lost_false), and two runs that save to the same file can leave a mixture (C96_mixed_false). Everything else is proved, for all crash points and schedules; the file is otherwise as before or has a beginning of the report. Other programs that use the files are not modelled."
  },
  {
   "property": "C97",
   "status": "proved",
   "theorems": [
    "PashAnn.ScriptArgs.C97_accepted_exact",
    "PashAnn.ScriptArgs.C97_unambiguous",
    "PashAnn.ScriptArgs.C97_script",
    "PashAnn.ScriptArgs.C97_joined",
    "PashAnn.ScriptArgs.C97_separate_exact",
    "PashAnn.ScriptArgs.C97_separate_false",
    "PashAnn.ScriptArgs.C97_help_only",
    "PashAnn.ScriptArgs.C97_help_exact",
    "PashAnn.ScriptArgs.C97_usage_exact"
   ],
   "note": "Messages are not modelled. Words that are not valid Unicode are not either. The model of argparse was compared with the one of Python 3.11 on 6000 random command lines; DESIGN.md names it as trusted."
  },
  {
   "property": "C98",
   "status": "partial",
   "theorems": [
    "PashAnn.Registry.C98_loads_exact",
    "PashAnn.Registry.C98_answers_exact",
    "PashAnn.Registry.C98_unknown",
    "PashAnn.Registry.C98_none_false",
    "PashAnn.Registry.C98_adding",
    "PashAnn.Registry.C98_missing",
    "PashAnn.Registry.C98_guide_false",
    "PashAnn.Registry.C98_shipped",
    "PashAnn.Registry.C98_definitions_false",
    "PashAnn.Registry.C98_files_false"
   ],
   "note": "False for unregistered commands if some command is registered under the name None (C98_none_false), for the second file name in the guide, which is not looked at (C98_guide_false), and for the functions in config/definitions.py, which always raise (C98_definitions_false) or list modules that are not there (C98_files_false). The rest proved, for names that are identifiers."
  },
  {
   "property": "C99",
   "status": "proved",
   "theorems": [
    "PashAnn.C99_local",
    "PashAnn.C99_number_exact",
    "PashAnn.C99_last_exact",
    "PashAnn.C99_quit_exact",
    "PashAnn.C99_exchange_exact",
    "PashAnn.C99_reverse_exact",
    "PashAnn.C99_position_exact",
    "PashAnn.C99_second_exact",
    "PashAnn.C99_withheld",
    "PashAnn.C99_range_closed",
    "PashAnn.C99_range_exact",
    "PashAnn.C99_range_change_exact",
    "PashAnn.C99_range_false",
    "PashAnn.C99_numbers_exact"
   ],
   "note": "Against the reader and interpreter of sed scripts in Spec/Sed.lean (written after the manual of GNU sed); ranges of lines are in Spec/SedRanges.lean, with one command. Labels, blocks and commands on several lines are not read. The exact statements for x, Np, n;p and 1!G;h;$p are about lines without newlines; those for Np, n;p, 1!G;h;$p and FIRST,LASTp about inputs in which no line occurs twice."
  },
  {
   "property": "C100",
   "status": "proved",
   "theorems": [
    "PashAnn.C100_any",
    "PashAnn.C100_any_groups",
    "PashAnn.C100_any_types",
    "PashAnn.C100_means",
    "PashAnn.C100_fits",
    "PashAnn.C100_all_or_none",
    "PashAnn.C100_other_commands",
    "PashAnn.C100_types",
    "PashAnn.C100_flag_synonyms",
    "PashAnn.C100_option_synonyms",
    "PashAnn.C100_listed_twice_false",
    "PashAnn.C100_one_entry",
    "PashAnn.C100_compositional",
    "PashAnn.C100_clusters",
    "PashAnn.C100_shipped",
    "PashAnn.C100_shipped_types",
    "PashAnn.C100_types_fits"
   ],
   "note": "C100_any and C100_any_types are about files of any form that is not rejected, the others about the documented form. That the spellings of one entry are interchangeable whatever the other entries are is false (C100_listed_twice_false); C100_one_entry says when they are."
  },
  {
   "property": "C101",
   "status": "proved",
   "theorems": [
    "PashAnn.C101_layout",
    "PashAnn.C101_page_layout",
    "PashAnn.C101_reads",
    "PashAnn.C101_one_value",
    "PashAnn.C101_printed",
    "PashAnn.C101_ascii",
    "PashAnn.C101_file",
    "PashAnn.C101_file_accepted",
    "PashAnn.C101_generated",
    "PashAnn.C101_generated_types",
    "PashAnn.C101_shipped",
    "PashAnn.C101_shipped_types"
   ],
   "note": "Numbers are kept as texts. Escapes for half of a surrogate pair and texts nested deeper than Python's recursion limit are outside the model."
  },
  {
   "property": "C102",
   "status": "partial",
   "theorems": [
    "PashAnn.C102_opened",
    "PashAnn.C102_consulted",
    "PashAnn.C102_raises",
    "PashAnn.C102_own_files_false",
    "PashAnn.C102_place",
    "PashAnn.C102_installed",
    "PashAnn.C102_shipped",
    "PashAnn.C102_long"
   ],
   "note": "False for names with '..': they lead to any file .json on the machine, which then describes the command (C102_own_files_false). Names longer than the operating system permits raise instead of using the default (C102_long). Proved otherwise; which file is opened and that no other one is are proved for all names (C102_opened, C102_consulted). Nothing changes while a line is read."
  },
  {
   "property": "C103",
   "status": "partial",
   "theorems": [
    "PashAnn.C103_col_partial",
    "PashAnn.C103_plain_partial",
    "PashAnn.C103_col_false"
   ],
   "note": "False if the cursor goes up into another part, with a vertical tab (C103_col_false, for all implementations after the manual). Proved if each part stays in its rows, in particular if there are no vertical tabs. Half-line motions, changes of the character set and -p are not covered."
  },
  {
   "property": "C104",
   "status": "partial",
   "theorems": [
    "PashAnn.C104_alt_bigrams_exact",
    "PashAnn.C104_alt_bigrams_false",
    "PashAnn.C104_sort_exact",
    "PashAnn.C104_line_wise",
    "PashAnn.C104_tests_false",
    "PashAnn.C104_words",
    "PashAnn.C104_custom_sort_false"
   ],
   "note": "Options are never read: all words are operands (C104_words), so custom_sort -r is described as reading a file -r and its merge is not told the order (C104_custom_sort_false). The plan for test_one and test_two cannot be executed (C104_tests_false). If alt_bigrams_aux gives pairs of adjacent lines, no recombining program makes its plan right (C104_alt_bigrams_false). The law is proved exact for alt_bigrams_aux, custom_sort (and sort), custom_tr and set_diff; for bigrams_aux see C69."
  },
  {
   "property": "C105",
   "status": "proved",
   "theorems": [
    "PashAnn.C105_described",
    "PashAnn.C105_encodings",
    "PashAnn.C105_one_value",
    "PashAnn.C105_utf8",
    "PashAnn.C105_shipped"
   ],
   "note": ""
  },
  {
   "property": "C106",
   "status": "proved",
   "theorems": [
    "PashAnn.C106_files",
    "PashAnn.C106_installable",
    "PashAnn.C106_same",
    "PashAnn.C106_default",
    "PashAnn.C106_all_false",
    "PashAnn.C106_new_command",
    "PashAnn.C106_shipped"
   ],
   "note": "That the meaning of all names is kept is false (C106_all_false): a hidden data file or one in a subdirectory is not installed; C106_default says what happens then. What setuptools does is taken from its documentation; symbolic links among the files to be copied are outside the model."
  },
  {
   "property": "C107",
   "status": "proved",
   "theorems": [
    "PashAnn.C107_lines",
    "PashAnn.C107_exact",
    "PashAnn.C107_added",
    "PashAnn.C107_order",
    "PashAnn.C107_order_false",
    "PashAnn.C107_typing",
    "PashAnn.C107_removed"
   ],
   "note": "For files of the documented form. C107_order_false: the condition on the order is needed. Changes during a call are not modelled; the two calls read the file once each."
  },
  {
   "property": "C108",
   "status": "partial",
   "theorems": [
    "PashAnn.C108_streams",
    "PashAnn.C108_exact",
    "PashAnn.C108_bigrams",
    "PashAnn.C108_lines",
    "PashAnn.C108_aggregator",
    "PashAnn.C108_false"
   ],
   "note": "False of the code for commands with several input files, for sed with files (it is taken to read standard input as well) and for sort -o (C108_false). C108_exact says exactly for which invocations the mapper is made, C108_lines for plain command lines; otherwise an error is raised. Recombination works for all of these (C108_aggregator)."
  },
  {
   "property": "C109",
   "status": "partial",
   "theorems": [
    "PashAnn.C109_nameless",
    "PashAnn.C109_grep_exact",
    "PashAnn.C109_offered",
    "PashAnn.C109_false"
   ],
   "note": "False of the code: for grep -H both plans that concatenate are offered, and the name of the part is printed (C109_false). C109_grep_exact says exactly which executions are right: all of them if the last of -H and -h is not -H, and otherwise those in which every part with something to print has the name of the file. C109_nameless covers all commands whose output does not depend on names."
  },
  {
   "property": "C110",
   "status": "partial",
   "theorems": [
    "PashAnn.C110_classes",
    "PashAnn.C110_exact",
    "PashAnn.C110_aggregators",
    "PashAnn.C110_missing",
    "PashAnn.C110_false"
   ],
   "note": "False of the code (C110_false). C110_exact lists exactly the invocations for which the library offers more or less than the older class, for all commands that have parallelizers; C110_missing says that nothing is offered for the others; C110_aggregators compares the aggregators and mappers. C114 compares the inputs and outputs."
  },
  {
   "property": "C111",
   "status": "proved",
   "theorems": [
    "PashAnn.C111_lines",
    "PashAnn.C111_right",
    "PashAnn.C111_parts",
    "PashAnn.C111_sort",
    "PashAnn.C111_completing",
    "PashAnn.C111_keeping",
    "PashAnn.C111_needed"
   ],
   "note": ""
  },
  {
   "property": "C112",
   "status": "partial",
   "theorems": [
    "PashAnn.C112_exact",
    "PashAnn.C112_grep_exact",
    "PashAnn.C112_sort",
    "PashAnn.C112_sort_executable",
    "PashAnn.C112_false"
   ],
   "note": "False of the code: the status of a parallel run is that of cat, so grep without a match succeeds (C112_false). C112_exact: the status is right exactly if the command succeeds on the whole input; C112_grep_exact for grep. For sort, output and status are always right (C112_sort)."
  },
  {
   "property": "C113",
   "status": "partial",
   "theorems": [
    "PashAnn.C113_shows",
    "PashAnn.C113_texts",
    "PashAnn.C113_equal",
    "PashAnn.C113_vars_false",
    "PashAnn.C113_vars_partial",
    "PashAnn.C113_vars_shows"
   ],
   "note": "C113_vars_shows says how invocations with variables, mappers and aggregators are printed. C113_shows and C113_texts hold for all objects, C113_equal for parsed and typed invocations, prefixes and plans. For invocations with variables it is false of the code: renaming a variable and back changes the text, not the equality (C113_vars_false); it holds if the accesses were entered in the same order (C113_vars_partial). The text of a plan leaves out two attributes (C87)."
  },
  {
   "property": "C114",
   "status": "partial",
   "theorems": [
    "PashAnn.C114_streams",
    "PashAnn.C114_false"
   ],
   "note": "False of the code (C114_false): the older files of most commands say that standard input is read, whatever the operands are. C114_streams gives the exact list of invocations for which both name the same streams, for all commands that both describe."
  },
  {
   "property": "C115",
   "status": "partial",
   "theorems": [
    "PashAnn.C115_prepared",
    "PashAnn.C115_cat",
    "PashAnn.C115_exact",
    "PashAnn.C115_lines",
    "PashAnn.C115_sort",
    "PashAnn.C115_commands",
    "PashAnn.C115_texts",
    "PashAnn.C115_texts_exact",
    "PashAnn.C115_grep",
    "PashAnn.C115_grep_names",
    "PashAnn.C115_false"
   ],
   "note": "False of the code (C115_false): for grep with several files and neither -h nor -H the names of the files are lost. The part about the invocation and about cat holds for all invocations (C115_prepared, C115_cat, C115_commands); the part about executions holds exactly if the command treats its inputs as one (C115_exact), with exact conditions for grep without -H (C115_grep) and for incomplete last lines (C115_texts_exact), and unconditionally for sort on lines (C115_sort). With grep -H the names are those of the parts (C109); C115_grep_names is exact if all parts are read under one name."
  },
  {
   "property": "C116",
   "status": "proved",
   "theorems": [
    "PashAnn.C116_wired",
    "PashAnn.C116_schedules",
    "PashAnn.C116_ends",
    "PashAnn.C116_result",
    "PashAnn.C116_manual",
    "PashAnn.C116_commands"
   ],
   "note": "For stages that concatenate or sort; not for plans with auxiliary outputs (see C118) and for uniq, whose aggregator looks at adjacent lines of complete outputs. Pipes hold any amount here (see C117). Commands that fail are not described."
  },
  {
   "property": "C117",
   "status": "proved",
   "theorems": [
    "PashAnn.C117_sizes",
    "PashAnn.C117_ends",
    "PashAnn.C117_result",
    "PashAnn.C117_manual",
    "PashAnn.C117_processes"
   ],
   "note": "The parts are files; a process that splits one input while the commands run is not described, nor are commands that fail. A process whose reader has stopped may go on writing."
  },
  {
   "property": "C118",
   "status": "proved",
   "theorems": [
    "PashAnn.C118_wired",
    "PashAnn.C118_schedules",
    "PashAnn.C118_ends",
    "PashAnn.C118_bigrams",
    "PashAnn.C118_commands",
    "PashAnn.C118_bigrams_commands"
   ],
   "note": "For bigrams_aux the parts must not be empty; what happens with empty parts is C69_empty_part_false. Pipes hold any amount; commands that fail are not described."
  },
  {
   "property": "C119",
   "status": "proved",
   "theorems": [
    "PashAnn.C119_always",
    "PashAnn.C119_undisturbed",
    "PashAnn.C119_killed",
    "PashAnn.C119_contents",
    "PashAnn.C119_beginnings",
    "PashAnn.C119_sublist",
    "PashAnn.C119_exact",
    "PashAnn.C119_part_lost",
    "PashAnn.C119_sort",
    "PashAnn.C119_manual"
   ],
   "note": "For stages that concatenate or sort; not for uniq; for plans with auxiliary pipes see C120. Pipes hold any amount. That the shell could learn of a death from an exit status is not described (see C112 for statuses: that of a concatenation is that of cat)."
  },
  {
   "property": "C120",
   "status": "partial",
   "theorems": [
    "PashAnn.C120_always",
    "PashAnn.C120_undisturbed",
    "PashAnn.C120_killed",
    "PashAnn.C120_contents",
    "PashAnn.C120_bigrams_exact",
    "PashAnn.C120_seams",
    "PashAnn.C120_false"
   ],
   "note": "The general part is proved (C120_always, C120_undisturbed, C120_killed, C120_contents). The part about bigrams_aux is false (C120_false): if just the first mapper is killed, a line can appear that is no bigram of the input. What can be left is said exactly by C120_bigrams_exact; C120_seams says that at most one line for each place where the input was split is wrong. Pipes hold any amount."
  },
  {
   "property": "C121",
   "status": "partial",
   "theorems": [
    "PashAnn.C121_grep_exact",
    "PashAnn.C121_grep_false",
    "PashAnn.C121_cut",
    "PashAnn.C121_tr_exact",
    "PashAnn.C121_tr_partial",
    "PashAnn.C121_xargs_exact",
    "PashAnn.C121_xargs_false",
    "PashAnn.C121_col_false",
    "PashAnn.C121_cat_exact",
    "PashAnn.C121_cat_false"
   ],
   "note": "False of the older data files: grep -n and grep -b (C121_grep_false), xargs that runs its command for many words at once (C121_xargs_false), col (C121_col_false), and cat -b and cat -s (C121_cat_false) are called stateless and are not. C121_grep_exact, C121_tr_exact, C121_xargs_exact and C121_cat_exact say exactly when each is right; cut is right (C121_cut)."
  },
  {
   "property": "C122",
   "status": "proved",
   "theorems": [
    "PashAnn.C122_text",
    "PashAnn.C122_generated",
    "PashAnn.C122_bytes",
    "PashAnn.C122_machine",
    "PashAnn.C122_missing_false"
   ],
   "note": "Proved for files that are cut anywhere (C122_text, C122_bytes, C122_machine). False if a file is missing altogether: then the default file describes the command and the line is read without an error (C122_missing_false). Half a pair of surrogates in UTF-16 is an error outside the model, as in C105."
  },
  {
   "property": "C123",
   "status": "partial",
   "theorems": [
    "PashAnn.C123_still",
    "PashAnn.C123_described_partial",
    "PashAnn.C123_lines_partial",
    "PashAnn.C123_false"
   ],
   "note": "False of the code if a command has a file only before or only after the exchange and the default file changes, too: then a line can be read in a third way (C123_false). Otherwise it holds (C123_described_partial, C123_lines_partial). Each file is opened and read at one moment."
  },
  {
   "property": "C124",
   "status": "partial",
   "theorems": [
    "PashAnn.C124_parts",
    "PashAnn.C124_concat",
    "PashAnn.C124_join_false",
    "PashAnn.C124_join_partial",
    "PashAnn.C124_join_sorted_partial",
    "PashAnn.C124_nl",
    "PashAnn.C124_rev_exact",
    "PashAnn.C124_rev_false",
    "PashAnn.C124_wc_exact",
    "PashAnn.C124_wc_false",
    "PashAnn.C124_wc_partial",
    "PashAnn.C124_uniq",
    "PashAnn.C124_uniq_c",
    "PashAnn.C124_uniq_d_exact",
    "PashAnn.C124_uniq_d_false",
    "PashAnn.C124_tr_s_exact",
    "PashAnn.C124_tr_s_false",
    "PashAnn.C124_sort",
    "PashAnn.C124_sort_h_exact",
    "PashAnn.C124_sort_h_false",
    "PashAnn.C124_possible_exact",
    "PashAnn.C124_repair"
   ],
   "note": "Proved for tr, tr -s without translation, nl, join with the first input cut, cat, uniq, uniq -c (if + adds the counts at the seam), wc -l and sort, for any number of parts (C124_parts). False of the table for rev, whose reduction is that of tac, for uniq -d, for wc cut inside a word, for sort -h, for tr -s if translating twice differs from translating once, and for join with the second input cut: for these witnesses (C124_..._false) and the exact conditions (C124_..._exact; for join a sufficient one) are proved. C124_repair says which of these lines could be right at all. The line for join -e is empty."
  },
  {
   "property": "C125",
   "status": "partial",
   "theorems": [
    "PashAnn.C125_large_partial",
    "PashAnn.C125_finite",
    "PashAnn.C125_processes",
    "PashAnn.C125_false",
    "PashAnn.C125_scripts",
    "PashAnn.C125_scripts_false",
    "PashAnn.C125_in_turns_partial",
    "PashAnn.C125_turns",
    "PashAnn.C125_bigrams_partial"
   ],
   "note": "Proved if the commands read their inputs and write their outputs one after the other and each pipe holds a line or more (C125_in_turns_partial, C125_bigrams_partial), or if pipes are large enough for the whole contents, whatever the order (C125_large_partial); that what is written is a beginning of what it should be, and that every run is finite (C125_finite), always. False otherwise (C125_false): for any sizes there are parts for which bigrams_aux writes nothing, if the aggregator reads its last input first, or if it reads in the order of a script as one would write it (C125_scripts_false)."
  }
 ]
}
