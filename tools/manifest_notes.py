PARTIAL = {
    "C125": "Proved if the commands read their inputs and write their outputs one after the other and each pipe holds a line or more (C125_in_turns_partial, "
            "C125_bigrams_partial), or if pipes are large enough for the whole contents, whatever the order (C125_large_partial); that what is written is a "
            "beginning of what it should be, and that every run is finite (C125_finite), always. False otherwise (C125_false): for any sizes there are parts "
            "for which bigrams_aux writes nothing, if the aggregator reads its last input first, or if it reads in the order of a script as one "
            "would write it (C125_scripts_false).",
    "C124": "Proved for tr, tr -s without translation, nl, join with the first input cut, cat, uniq, uniq -c (if + adds the counts at the seam), wc -l and "
            "sort, for any number of parts (C124_parts). False of the table for rev, whose reduction is that of tac, for uniq -d, for wc cut inside a word, "
            "for sort -h, for tr -s if translating twice differs from translating once, and for join with the second input cut: for these witnesses "
            "(C124_..._false) and the exact conditions (C124_..._exact; for join a sufficient one) are proved. C124_repair says which of these lines could "
            "be right at all. The line for join -e is empty.",
    "C123": "False of the code if a command has a file only before or only after the exchange and the default file changes, too: then a line can be read "
            "in a third way (C123_false). Otherwise it holds (C123_described_partial, C123_lines_partial). Each file is opened and read at one moment.",
    "C121": "False of the older data files: grep -n and grep -b (C121_grep_false), xargs that runs its command for many words at once "
        "(C121_xargs_false), col (C121_col_false), and cat -b and cat -s (C121_cat_false) are called stateless and are not. C121_grep_exact, "
        "C121_tr_exact, C121_xargs_exact and C121_cat_exact say exactly when each is right; cut is right (C121_cut).",
    "C120": "The general part is proved (C120_always, C120_undisturbed, C120_killed, C120_contents). The part about bigrams_aux is false (C120_false): if just "
            "the first mapper is killed, a line can appear that is no bigram of the input. What can be left is said exactly by C120_bigrams_exact; "
            "C120_seams says that at most one line for each place where the input was split is wrong. Pipes hold any amount.",
    "C115": "False of the code (C115_false): for grep with several files and neither -h nor -H the names of the files are lost. The part about the "
            "invocation and about cat holds for all invocations (C115_prepared, C115_cat, C115_commands); the part about executions holds "
            "exactly if the command treats its inputs as one (C115_exact), with exact conditions for grep without -H (C115_grep) and for incomplete "
            "last lines (C115_texts_exact), and unconditionally for sort on lines (C115_sort). With grep -H the names are those of the parts (C109); C115_grep_names is exact if all parts are read under one name.",
    "C114": "False of the code (C114_false): the older files of most commands say that standard input is read, whatever the operands are. "
            "C114_streams gives the exact list of invocations for which both name the same streams, for all commands that both describe.",
    "C113": "C113_vars_shows says how invocations with variables, mappers and aggregators are printed. C113_shows and C113_texts hold for all objects, C113_equal for parsed and typed invocations, prefixes and plans. For invocations "
            "with variables it is false of the code: renaming a variable and back changes the text, not the equality (C113_vars_false); it holds if "
            "the accesses were entered in the same order (C113_vars_partial). The text of a plan leaves out two attributes (C87).",
    "C112": "False of the code: the status of a parallel run is that of cat, so grep without a match succeeds (C112_false). C112_exact: the "
            "status is right exactly if the command succeeds on the whole input; C112_grep_exact for grep. For sort, output and status are always right (C112_sort).",
    "C110": "False of the code (C110_false). C110_exact lists exactly the invocations for which the library offers more or less than the "
            "older class, for all commands that have parallelizers; C110_missing says that nothing is offered for the others; C110_aggregators "
            "compares the aggregators and mappers. C114 compares the inputs and outputs.",
    "C109": "False of the code: for grep -H both plans that concatenate are offered, and the name of the part is printed (C109_false). "
            "C109_grep_exact says exactly which executions are right: all of them if the last of -H and -h is not -H, and otherwise those in which "
            "every part with something to print has the name of the file. C109_nameless covers all commands whose output does not depend on names.",
    "C108": "False of the code for commands with several input files, for sed with files (it is taken to read standard input as well) and for "
            "sort -o (C108_false). C108_exact says exactly for which invocations the mapper is made, C108_lines for plain command lines; "
            "otherwise an error is raised. Recombination works for all of these (C108_aggregator).",
    "C98": "False for unregistered commands if some command is registered under the name None (C98_none_false), for the second "
           "file name in the guide, which is not looked at (C98_guide_false), and for the functions in config/definitions.py, "
           "which always raise (C98_definitions_false) or list modules that are not there (C98_files_false). The rest proved, for names that are identifiers.",
    "C96": "False for the contents of the file: a run that is stopped after it has opened an existing file leaves any "
           "beginning of the report (C96_lost_false), and two runs that save to the same file can leave a mixture "
           "(C96_mixed_false). Everything else is proved, for all crash points and schedules; the file is otherwise as before or "
           "has a beginning of the report. Other programs that use the files are not modelled.",
    "C88": "False for the methods about streaming inputs, which do nothing, and for retracting with False (both refuted). "
           "Proved for histories in which no call says streaming input after another one said something else, which all "
           "shipped generators meet (C88_shipped); C88_operands_exact and C88_streams cover all histories.",
    "C89": "False for functions of adjacent lines that are said to be implemented: asking for the aggregator raises for "
           "every text, command and streams (C89_adjf_false). The rest proved.",
    "C08": "The claim is false of the code: letters of a cluster keep their spelling (tr -Cd). Negation proved; "
           "equality proved to hold exactly when every letter is its own canonical spelling (C08_cluster_exact); the "
           "exact difference proved in general.",
    "C10": "False for uniq, whose database entry is a bare string (uniq f). Proved for all other words and commands.",
    "C12": "False for clusters with non-canonical letters (grep -yv). Proved to hold exactly for results with canonical flags (C12_reparse_exact); in "
           "general re-reading canonicalises flags once and is then stable.",
    "C26": "False for sed, alt_bigrams_aux, bigrams_aux, col, test_one and test_two, which always claim standard "
           "input (refuted for all their invocations). Proved for every other command; exact in C26_exact.",
    "C27": "False for tail -n N FILE and sed -e SCRIPT FILE, for all N, SCRIPT and FILE (refuted). Proved for every "
           "option the database declares with an argument.",
    "C32": "False for every grep invocation with -A, -B, -C or -m and without -q (refuted for all of them), and the long "
           "spellings are not looked at at all (C32_long_false). Proved: with such an option nothing is offered exactly if "
           "-q is given.",
    "C35": "False when the last set starts with the newline escape (tr -d of a set starting with backslash n). "
           "Proved when the escape occurs later in the set and the set is not complemented; exact in C35_exact.",
    "C39": "False for sort: each call appends another copy to the stored list (exact growth proved). Proved for "
           "all non-commutative information, hence for every command other than sort and custom_sort; exact in C39_exact.",
    "C42": "False if the given variables may already occur in the invocation (refuted). Proved, with the exceptions "
           "raised, for variables new to the invocation. For any variables whatsoever C42_exact_inputs and "
           "C42_exact_outputs say exactly what is raised and what is returned.",
    "C44": "Purity proved for all. Completeness is false for variables held by OptionWithIOVar options, which are "
           "never reported (refuted for all of them); proved for all other occurrences.",
    "C45": "False for variables held by OptionWithIOVar options, and a variable occurring twice is rejected (both "
           "proved). Proved for every invocation on which renaming returns, for all other occurrences; when it returns is C45_outcome.",
    "C48": "False if the original command has no implicit streaming output: the given output is dropped (refuted). "
           "Proved for commands with one. C48_exact says exactly when such an aggregator exists and C48_made what it is "
           "whenever it does, for every command and kind. C48_text is about aggregators given as the text of a command.",
    "C52": "Domain and compositionality proved. Injectivity is false (escapes and plain characters have the same "
           "text, for every character); proved for words without escapes whose texts do not contain the delimiters.",
    "C54": "False for -A, -B and -C (refuted) and for -m with every limit of at least one (refuted for all programs as "
           "in the manual). Proved for every other invocation that is offered anything and has only "
           "options that the description of the program covers (Covered, Spec/Streams.lean), except with -z, for which see C70. "
           "C54_limit_exact says for which inputs and splits -m is right, C54_context_exact for which -A, -B and -C are. "
           "With one of these four, -c, -l, -L, -n and -b are offered something as well: C54_count_exact, C54_listed_exact, "
           "C54_unlisted_exact and C54_numbers_exact say when that is right.",
    "C56": "False for -u (refuted for all programs as in the manual and all lines) and for --group other than separate "
           "(refuted). Proved otherwise, for all splits and all orders of joining, for the options that the description of the program covers, except "
           "for -z (streams are lists of lines; see C70_uniq_false) and -c (the function to apply is not implemented in the code). For -u, "
           "C56_unique_partial proves it for parts that share no lines that compare equal, and C56_unique_exact (two parts) and "
           "C56_unique_parts_exact (any number of parts, any order of joining) say for which cuts of an input with equal lines "
           "adjacent it is right. For --group with prepend, append or both, C56_group_exact: it is right exactly when at most one "
           "part is not empty.",
    "C57": "False: an existing file is overwritten, a new one is not written (both proved for all states). Proved: "
           "the result is delivered exactly once and no other file changes.",
    "C58": "Equivalence relation proved for all values; equality of contents proved for parsed and typed invocations "
           "and parallelizers. False for invocations with OptionWithIOVar options, which are compared by identity "
           "(refuted for all of them); proved when such options are the same objects.",
    "C65": "False if the newline delimits the fields (refuted for all programs as in the manual). Proved for all other cut "
           "invocations with covered options and without -z, for which see C70.",
    "C66": "False for tr -s with the newline escape as last set (refuted for all programs as in the manual). Proved when "
           "nothing is squeezed across an end of line; C66_exact says that this is the exact condition. Only usages "
           "that tr accepts are described (TrUsage).",
    "C67": "False for scripts with line numbers or $ before a command, which are offered (refuted for all of them). Proved for scripts that act "
           "on each line by itself. C67_exact: for every script it holds exactly if the output for a concatenation is the concatenation of the outputs.",
    "C68": "False if the command is run for several words at once and for empty parts without -r (both refuted for all "
           "programs as in the manual). Proved for one run per word (-n 1) and per line (-L 1). For -n K "
           "with any K and parts that all have words, C68_batches_exact says for which parts it holds, and for -L K "
           "C68_line_batches_exact.",
    "C69": "The general statement is proved (C69_summary). bigrams_aux: false for empty parts (refuted for all programs as "
           "described), proved for non-empty parts. C69_bigrams_exact: for a non-empty input it is right exactly if no part is empty.",
    "C70": "False for grep, cut and uniq (refuted for all programs as in the manual); proved for parts that do not end "
           "inside a record. C70_grep_exact, C70_sed_exact and C70_xargs_exact say exactly when all splits at newlines "
           "are right: never if grep finds anything, and for sed and xargs -n 1 -r only if a newline in a record makes no "
           "difference. Other scripts of sed and other batches of xargs are not covered.",
    "C72": "Proved for lines of flags, in any layout (C72_layout). False for options (each spelling becomes an option of its own), for a flag beside an "
           "option (not declared at all) and for names with digits (dropped). C72_uniq_shipped: uniq.json is the "
           "script's output with exactly these mistakes.",
    "C76": "False for substitute, replace_var and the removing methods: the receiver and the lists of new variables can be "
           "left half changed (C76_raising_changes_nothing_false), and the receiver can be left unusable "
           "(C76_unusable_after_exception). Proved for everything else, in every history.",
    "C77": "False for the spellings in the lists swallowing, leaving, unknown and apart of Spec/Manual.lean, for each of "
           "which the wrong reading is proved for all lines; proved for every other spelling in the manuals.",
    "C78": "False for assignments of awk (announced as files); also not claimed for operands of col, the starting file of "
           "diff, and spellings misread by C77. Proved in both directions otherwise. Reads caused by scripts or directory "
           "contents are outside the specification.",
    "C79": "False for sources of mv, sed in place, files that awk writes on request, and a file called '-' (all refuted). "
           "Nothing that is not written is announced (C79_announced_written).",
    "C80": "False for awk with only assignments, xargs -a and grep -r without files (refuted), and sed (C26).",
    "C81": "False for the verbose output of mv and rm (refuted), help texts, and outputs called '-' (C79_dash_false).",
    "C83": "False for operands that contain a comma and a space, for a single empty operand, and for typed names with "
           "line breaks (refuted for all such names). Proved otherwise.",
    "C87": "False for plans that differ only in the number of extra pipes or in what the splitter tells the mapper, "
           "and for a mapper called None (refuted). Proved otherwise, for names on one line; proved without exception "
           "for what the library says about commands (C87_commands). Options with variables inside a transformer are "
           "printed with their address, which is not modelled.",
    "C84": "Proved for invocations without variables. False for invocations with variables, whose queries find no "
           "variable (C84_variables_false), and for the configuration inputs of generate_inputs "
           "(C84_config_inputs_false).",
    "C90": "Without exception for sort (C90_sort), if the options determine an order. For the other commands without the "
           "options for which it is false (C54, C56, C65-C68), without -z, and for sed, tr and xargs for the scripts, sets "
           "and batches of C66-C68. Options written with the exceptional spellings of C78 are not covered.",
    "C85": "False: such requests are not looked at, for any command (C85_not_looked_at_false), and every plan that is "
           "offered gives a wrong output (refuted for concatenating plans, for uniq and for sort). Proved: which other flags "
           "and options the specifications of programs leave out.",
    "C102": "False for names with '..': they lead to any file .json on the machine, which then describes the command "
            "(C102_own_files_false). Names longer than the operating system permits raise instead of using the default "
            "(C102_long). Proved otherwise; which file is opened and that no other one is are proved for all names "
            "(C102_opened, C102_consulted). Nothing changes while a line is read.",
    "C103": "False if the cursor goes up into another part, with a vertical tab (C103_col_false, for all implementations "
            "after the manual). Proved if each part stays in its rows, in particular if there are no vertical tabs. Half-line "
            "motions, changes of the character set and -p are not covered.",
    "C104": "Options are never read: all words are operands (C104_words), so custom_sort -r is described as reading a file -r and its "
            "merge is not told the order (C104_custom_sort_false). The plan for test_one and test_two cannot be executed "
            "(C104_tests_false). If alt_bigrams_aux gives pairs of adjacent lines, no recombining program makes its plan right "
            "(C104_alt_bigrams_false). The law is proved exact for alt_bigrams_aux, custom_sort (and sort), custom_tr and set_diff; "
            "for bigrams_aux see C69.",
}
NOTES = {
    "C122": "Proved for files that are cut anywhere (C122_text, C122_bytes, C122_machine). False if a file is missing altogether: then the default "
            "file describes the command and the line is read without an error (C122_missing_false). Half a pair of surrogates in UTF-16 is an error "
            "outside the model, as in C105.",
    "C119": "For stages that concatenate or sort; not for uniq; for plans with auxiliary pipes see C120. Pipes hold any amount. That the shell could learn of a "
            "death from an exit status is not described (see C112 for statuses: that of a concatenation is that of cat).",
    "C118": "For bigrams_aux the parts must not be empty; what happens with empty parts is C69_empty_part_false. Pipes hold any amount; commands "
            "that fail are not described.",
    "C117": "The parts are files; a process that splits one input while the commands run is not described, nor are commands that fail. A process "
            "whose reader has stopped may go on writing.",
    "C116": "For stages that concatenate or sort; not for plans with auxiliary outputs (see C118) and for uniq, whose aggregator looks at "
            "adjacent lines of complete outputs. Pipes hold any amount here (see C117). Commands that fail are not described.",
    "C107": "For files of the documented form. C107_order_false: the condition on the order is needed. Changes during a call are not modelled; the "
            "two calls read the file once each.",
    "C106": "That the meaning of all names is kept is false (C106_all_false): a hidden data file or one in a subdirectory is not installed; "
            "C106_default says what happens then. What setuptools does is taken from its documentation; symbolic links among the files "
            "to be copied are outside the model.",
    "C101": "Numbers are kept as texts. Escapes for half of a surrogate pair and texts nested deeper than Python's recursion limit are "
            "outside the model.",
    "C100": "C100_any and C100_any_types are about files of any form that is not rejected, the others about the documented form. That the spellings of one entry are "
            "interchangeable whatever the other entries are is false (C100_listed_twice_false); C100_one_entry says when they are.",
    "C99": "Against the reader and interpreter of sed scripts in Spec/Sed.lean (written after the manual of GNU sed); ranges "
           "of lines are in Spec/SedRanges.lean, with one command. Labels, blocks and commands on several lines are not read. The exact statements for x, Np, n;p and 1!G;h;$p are "
           "about lines without newlines; those for Np, n;p, 1!G;h;$p and FIRST,LASTp about inputs in which no line occurs twice.",
    "C97": "Messages are not modelled. Words that are not valid Unicode are not either. The model of argparse was compared "
           "with the one of Python 3.11 on 6000 random command lines; DESIGN.md names it as trusted.",
    "C95": "An access to an attribute or to the dictionary is one turn; copying the dictionary counts as one access. That "
           "the condition is needed is C95_asking_while_changing_false: the methods that ask write back what they read.",
    "C73": "For clients that use methods and do not reach into the fields of an invocation.",
    "C01": "Stated for the quoting of shlex.quote and shlex.join.",
    "C05": "The exception in the statement (a trailing option name) is shown to be real.",
    "C11": "The README's claim about equal signs is refuted by C11_equals_not_split.",
    "C40": "For operands and implicit streams, as stated; an output held by an option is rejected "
           "(C40_output_in_option_false).",
    "C41": "For any history of substitutions; that the variables must be fresh is shown by C41_needs_fresh.",
    "C53": "That the condition is needed is C53_necessary; that executions exist is C53_executable.",
    "C55": "Under the hypothesis that the options determine a total order, as stated. sort --sort random does not meet it "
           "and is offered all the same (C55_random_offered).",
    "C50": "Add never removes duplicates inside the list to add (C50_add_repeats).",
    "C46": "C46_outcome says exactly when removal returns and what it raises otherwise; C46_returns says what it "
           "returns, for every invocation.",
}
