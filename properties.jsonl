{"id": "C01", "title": "Quoting round trip", "statement": "If an argument vector is rendered with shell quoting (every word quoted the way Python's shlex.quote does, joined by single blanks), then parse sees exactly that vector: the command name is the first word and no word is split, merged, dropped or altered.", "quantifier": "every non-empty list of argument strings over all characters, including quotes, backslashes, blanks, newlines and empty words", "why_tests_cant": "Arguments are unbounded strings over an unbounded alphabet; a test can only try some of them.", "anchors": ["pash_annotations/parser/parser.py:parse", "python stdlib shlex.split / shlex.quote (called at parser.py:12)"]}
{"id": "C02", "title": "Which command lines are rejected", "statement": "parse fails on an unterminated quote, a dangling backslash and a line with no word at all. On every other line the name of the command decides: it fails if the name contains a NUL character or is a path through a data file, and otherwise, unless the name goes up by .. or is too long for a file name, it returns an invocation.", "quantifier": "every input string", "why_tests_cant": "The set of strings is infinite; absence of other exceptions cannot be sampled.", "anchors": ["pash_annotations/parser/parser.py:parse", "pash_annotations/parser/util_parser.py:get_json_data"]}
{"id": "C03", "title": "Nothing is lost or invented by parse", "statement": "Spelling the flags and options of the parse result back out gives, up to declared synonyms and flag clusters, exactly the words before the first operand, and the operand list is exactly the remaining words, in order and unchanged.", "quantifier": "every command and every word list", "why_tests_cant": "Must hold for word lists of every length and content.", "anchors": ["pash_annotations/parser/parser.py:parse"]}
{"id": "C04", "title": "Parse result is the one the grammar prescribes", "statement": "The result of parse is the unique derivation of a small declarative grammar: a declared flag spelling, else a declared option spelling followed by its argument, else a '-' cluster all of whose letters are declared flags; the first word that is none of these starts the operands.", "quantifier": "every option database, every command and every word list", "why_tests_cant": "Equivalence with a grammar ranges over all databases and word lists.", "anchors": ["pash_annotations/parser/parser.py:parse", "pash_annotations/parser/parser.py:get_set_of_all_flags", "pash_annotations/parser/parser.py:get_set_of_all_options", "pash_annotations/parser/parser.py:are_all_individually_flags"]}
{"id": "C05", "title": "Everything after the first operand is an operand", "statement": "Once a word is taken as an operand, all following words are operands whatever they look like; appending words after an operand never changes the flags and options already recognised, except when the operand is a trailing option name that lacked its argument.", "quantifier": "every command, every word list and every continuation", "why_tests_cant": "Continuations are unbounded.", "anchors": ["pash_annotations/parser/parser.py:parse"]}
{"id": "C06", "title": "Flag synonyms are interchangeable", "statement": "For every shipped command, replacing one spelling of a flag by another spelling declared for the same flag, at a position where a flag is recognised, does not change the parse result.", "quantifier": "all shipped commands, all declared flag synonyms, all contexts before and after", "why_tests_cant": "Contexts are unbounded word lists.", "anchors": ["pash_annotations/parser/parser.py:parse", "pash_annotations/parser/parser.py:get_dict_flag_to_primary_repr", "pash_annotations/parser/command_flag_option_info/data/*.json"]}
{"id": "C07", "title": "Option synonyms are interchangeable", "statement": "For every shipped command, replacing one spelling of an option by another spelling declared for the same option, at a position where options are recognised and followed by an argument, does not change the parse result.", "quantifier": "all shipped commands, all declared option synonyms, all arguments and contexts", "why_tests_cant": "Contexts and arguments are unbounded.", "anchors": ["pash_annotations/parser/parser.py:parse", "pash_annotations/parser/parser.py:get_dict_option_to_primary_repr", "pash_annotations/parser/command_flag_option_info/data/*.json"]}
{"id": "C08", "title": "Clustered flags equal separate flags", "statement": "A cluster such as -abc parses like -a -b -c.", "quantifier": "all shipped commands, all clusters, all contexts", "why_tests_cant": "Clusters have unbounded length and unbounded context.", "anchors": ["pash_annotations/parser/parser.py:parse", "pash_annotations/parser/parser.py:are_all_individually_flags", "pash_annotations/parser/command_flag_option_info/data/*.json"]}
{"id": "C09", "title": "Parsing is compositional in the option prefix", "statement": "If a word list parses with no operands, then parsing it followed by more words gives its flags and options followed by those of the remaining words, with the operands of the remaining words.", "quantifier": "all shipped commands, all prefixes, all continuations", "why_tests_cant": "Unbounded prefixes and continuations.", "anchors": ["pash_annotations/parser/parser.py:parse"]}
{"id": "C10", "title": "Words without a leading dash are never flags or options", "statement": "A word that does not begin with '-' is never recognised as a flag or an option; file names are operands.", "quantifier": "all shipped commands and all words", "why_tests_cant": "Words range over all strings.", "anchors": ["pash_annotations/parser/parser.py:parse", "pash_annotations/parser/command_flag_option_info/data/*.json"]}
{"id": "C11", "title": "Double dash and attached values", "statement": "'--' and words containing '=' are not interpreted: they start the operand list and every later word is an operand (README says the parser splits on equal signs).", "quantifier": "all shipped commands, all words containing '=', all contexts", "why_tests_cant": "Words and contexts are unbounded.", "anchors": ["pash_annotations/parser/parser.py:parse", "README.md (section Parser)", "pash_annotations/parser/command_flag_option_info/data/*.json"]}
{"id": "C12", "title": "Re-parsing a rendered parse result", "statement": "Rendering a parse result as a quoted command line and parsing it again gives the same invocation, so the data structure is a faithful representation of the command line.", "quantifier": "every command line that parses, for every shipped command", "why_tests_cant": "Ranges over all command lines.", "anchors": ["pash_annotations/parser/parser.py:parse", "pash_annotations/datatypes/CommandInvocationInitial.py:CommandInvocationInitial"]}
{"id": "C13", "title": "Option arguments can always be typed", "statement": "For every parsed invocation the class and access kind of each option argument is found: typing the flag and option list never fails, whatever the command.", "quantifier": "every command line that parses", "why_tests_cant": "Needs the parser's normalisation and the option database to agree on all inputs.", "anchors": ["pash_annotations/annotation_generation/annotation_generators/InputOutputInfoGenerator_Interface.py:get_flagoption_list_typer_for_specific_list", "pash_annotations/annotation_generation/annotation_generators/InputOutputInfoGenerator_Interface.py:get_dict_option_to_class_for_arg", "pash_annotations/parser/command_flag_option_info/data/*.json"]}
{"id": "C14", "title": "Typing preserves the invocation", "statement": "Applying the input-output information produced for a parsed invocation never fails and keeps the command name, every flag, every option name and argument text, and every operand text, in the same number and order.", "quantifier": "every parsed invocation with input-output information", "why_tests_cant": "Lists have unbounded length; truncation shows only for particular lengths.", "anchors": ["pash_annotations/annotation_generation/datatypes/InputOutputInfo.py:apply_input_output_info_to_command_invocation", "pash_annotations/annotation_generation/annotation_generators/InputOutputInfoGenerator_Interface.py"]}
{"id": "C15", "title": "Dash means the standard stream of the right direction", "statement": "A typed file argument is standard input exactly when its text is '-' and its access is an input, standard output exactly when its text is '-' and its access is an output, and otherwise the file of that name; its access kind is the declared one.", "quantifier": "all argument texts and all access kinds", "why_tests_cant": "Argument texts are all strings.", "anchors": ["pash_annotations/annotation_generation/datatypes/InputOutputInfo.py:apply_typer_to_arg", "pash_annotations/util.py:compute_actual_el_for_input", "pash_annotations/util.py:compute_actual_el_for_output"]}
{"id": "C16", "title": "Access kinds are partitioned", "statement": "Every access kind is exactly one of input or output, the named predicates are mutually exclusive, and the textual names map one to one onto the kinds with every other text rejected.", "quantifier": "all access kinds and all strings", "why_tests_cant": "Rejection ranges over all strings.", "anchors": ["pash_annotations/datatypes/AccessKind.py"]}
{"id": "C17", "title": "Side-effect warning is exact", "statement": "has_other_outputs on the input-output information is true exactly when the typed invocation contains an option argument or an operand with other-output access.", "quantifier": "every parsed invocation with input-output information", "why_tests_cant": "Ranges over all invocations.", "anchors": ["pash_annotations/annotation_generation/datatypes/InputOutputInfo.py:has_other_outputs", "pash_annotations/datatypes/CommandInvocationWithIO.py:get_operands_with_other_output", "pash_annotations/datatypes/CommandInvocationWithIO.py:get_options_with_other_output"]}
{"id": "C18", "title": "Which commands have other outputs", "statement": "Among parsed invocations that get input-output information, exactly these report other outputs: mv always, rm and mkfifo when they have an operand, sort when -T is given.", "quantifier": "every parsed invocation of every command", "why_tests_cant": "A classification over all commands and all argument lists.", "anchors": ["pash_annotations/annotation_generation/datatypes/InputOutputInfo.py:has_other_outputs", "pash_annotations/annotation_generation/annotation_generators/", "pash_annotations/parser/command_flag_option_info/data/*.json"]}
{"id": "C19", "title": "Asking for annotations never raises", "statement": "The two annotation look-ups return a value for every invocation; commands without a generator, and only these or rejected usages, give no information.", "quantifier": "every invocation, parsed or hand-built", "why_tests_cant": "Absence of an exception over all invocations.", "anchors": ["pash_annotations/annotation_generation/AnnotationGeneration.py:get_input_output_info_from_cmd_invocation", "pash_annotations/annotation_generation/AnnotationGeneration.py:get_parallelizability_info_from_cmd_invocation"]}
{"id": "C20", "title": "When input-output information is refused", "statement": "For parsed invocations, no input-output information is given exactly when the command has no generator or the usage is one of: awk, grep or sed without script option and without operand; comm without exactly two operands; set_diff without exactly one; uniq with more than two; mv without -t and without operand or with several -t; wc with --files0-from.", "quantifier": "every parsed invocation", "why_tests_cant": "Exactness over all commands and argument lists.", "anchors": ["pash_annotations/annotation_generation/AnnotationGeneration.py", "pash_annotations/annotation_generation/annotation_generators/"]}
{"id": "C21", "title": "Implicit streams are the standard ones", "statement": "Whenever input-output information is produced, the implicit streaming input is absent or standard input with stream-input access, and the implicit streaming output is absent or standard output with stream-output access.", "quantifier": "every invocation of every command", "why_tests_cant": "Invariant over all generators and all argument lists.", "anchors": ["pash_annotations/annotation_generation/annotation_generators/", "pash_annotations/annotation_generation/datatypes/InputOutputInfo.py"]}
{"id": "C22", "title": "Plain filters read their operands or standard input", "statement": "For cat, cut, head, tail and wc, every operand is a streaming input, standard input is read implicitly exactly when there is no operand, and standard output is always written.", "quantifier": "every invocation of those commands with typed options", "why_tests_cant": "Operand lists are unbounded.", "anchors": ["pash_annotations/annotation_generation/annotation_generators/InputOutputInfoGeneratorCat.py", "pash_annotations/annotation_generation/annotation_generators/InputOutputInfoGeneratorCut.py", "pash_annotations/annotation_generation/annotation_generators/InputOutputInfoGeneratorHead.py", "pash_annotations/annotation_generation/annotation_generators/InputOutputInfoGeneratorTail.py", "pash_annotations/annotation_generation/annotation_generators/InputOutputInfoGeneratorWc.py"]}
{"id": "C23", "title": "grep and awk: pattern versus files", "statement": "Without a script option the first operand is a configuration string and the others are streaming inputs; with one, all operands are streaming inputs; standard input is read implicitly exactly when no streaming operand is left; grep writes standard output exactly when -q is absent.", "quantifier": "every invocation of grep and awk", "why_tests_cant": "Operand and option lists are unbounded.", "anchors": ["pash_annotations/annotation_generation/annotation_generators/InputOutputInfoGeneratorGrep.py", "pash_annotations/annotation_generation/annotation_generators/InputOutputInfoGeneratorAwk.py"]}
{"id": "C24", "title": "sort writes exactly one stream", "statement": "sort writes standard output implicitly exactly when -o is absent; when -o is given its argument is a stream output; standard input is implicit exactly when there are neither operands nor --files0-from.", "quantifier": "every parsed invocation of sort", "why_tests_cant": "Unbounded option lists.", "anchors": ["pash_annotations/annotation_generation/annotation_generators/InputOutputInfoGeneratorSort.py", "pash_annotations/parser/command_flag_option_info/data/*.json"]}
{"id": "C25", "title": "mv, rm, mkfifo, tee, uniq operand directions", "statement": "mv without -t: all operands but the last are other-inputs and the last an other-output; with -t all are other-inputs; rm and mkfifo: all other-outputs; tee: all stream-outputs; uniq with two operands: the first is a stream input and the second a stream output.", "quantifier": "every invocation of those commands", "why_tests_cant": "Operand lists are unbounded.", "anchors": ["pash_annotations/annotation_generation/annotation_generators/InputOutputInfoGeneratorMv.py", "pash_annotations/annotation_generation/annotation_generators/InputOutputInfoGeneratorTee.py", "pash_annotations/annotation_generation/annotation_generators/InputOutputInfoGeneratorUniq.py"]}
{"id": "C26", "title": "Standard input is claimed only when it is read", "statement": "A command given file operands as streaming inputs, none of them '-', does not also claim standard input.", "quantifier": "every invocation of every command that takes streaming operands", "why_tests_cant": "All commands and operand lists.", "anchors": ["pash_annotations/annotation_generation/annotation_generators/InputOutputInfoGeneratorSed.py", "pash_annotations/annotation_generation/annotation_generators/"]}
{"id": "C27", "title": "Option arguments are not mistaken for input files", "statement": "For tail -n N FILE and sed -e SCRIPT FILE only FILE is a streaming input.", "quantifier": "every count, script and file name", "why_tests_cant": "All strings.", "anchors": ["pash_annotations/parser/command_flag_option_info/data/*.json", "pash_annotations/annotation_generation/annotation_generators/InputOutputInfoGeneratorTail.py", "pash_annotations/annotation_generation/annotation_generators/InputOutputInfoGeneratorSed.py"]}
{"id": "C28", "title": "Round robin only with order-insensitive recombination", "statement": "Every plain round-robin parallelizer ever offered recombines by concatenation or by an adjacent-lines aggregator, never by a custom aggregator.", "quantifier": "every invocation of every command, and any number of calls to the inference function", "why_tests_cant": "Invariant over all annotations and call histories.", "anchors": ["pash_annotations/annotation_generation/datatypes/parallelizability/Parallelizer.py:Parallelizer", "pash_annotations/annotation_generation/datatypes/ParallelizabilityInfo.py"]}
{"id": "C29", "title": "Round robin never without consecutive chunks", "statement": "Whenever a round-robin parallelizer is offered, a consecutive-chunks parallelizer with the same mapper and aggregator is offered too.", "quantifier": "every invocation of every command", "why_tests_cant": "Invariant over all annotations.", "anchors": ["pash_annotations/annotation_generation/annotation_generators/"]}
{"id": "C30", "title": "Only implemented parallelizers are usable", "statement": "An offered parallelizer yields an actual mapper and aggregator only if both parts are implemented; grep never offers one with an unimplemented part.", "quantifier": "every invocation", "why_tests_cant": "Ranges over all invocations.", "anchors": ["pash_annotations/annotation_generation/datatypes/parallelizability/Parallelizer.py:are_all_parts_implemented", "pash_annotations/annotation_generation/annotation_generators/ParallelizabilityInfoGeneratorGrep.py"]}
{"id": "C31", "title": "grep parallelizability decision", "statement": "grep offers consecutive chunks and round robin with the unchanged command and concatenation exactly when none of -q, -L, -l, -c, -n, -b is given (or a context or count limit option masks them), and nothing otherwise.", "quantifier": "every invocation of grep", "why_tests_cant": "All flag and option lists.", "anchors": ["pash_annotations/annotation_generation/annotation_generators/ParallelizabilityInfoGeneratorGrep.py"]}
{"id": "C32", "title": "grep with context or limit options is not split", "statement": "grep with -A, -B, -C or -m is never offered a parallelizer that splits within the input (documented: requires context; for -m only individual files).", "quantifier": "every invocation of grep with such an option", "why_tests_cant": "All option lists.", "anchors": ["pash_annotations/annotation_generation/annotation_generators/ParallelizabilityInfoGeneratorGrep.py", "docs/adding-annotations.md"]}
{"id": "C33", "title": "sort parallelizability decision", "statement": "sort is always commutative; it offers exactly one parallelizer (consecutive chunks, unchanged command as mapper, two-way merge) unless one of -c -C -u -z -R -s -m --files0-from --random-source is present, and then none.", "quantifier": "every invocation of sort and custom_sort", "why_tests_cant": "All flag and option lists.", "anchors": ["pash_annotations/annotation_generation/annotation_generators/ParallelizabilityInfoGeneratorSort.py", "pash_annotations/annotation_generation/annotation_generators/ParallelizabilityInfoGeneratorCustomSort.py"]}
{"id": "C34", "title": "sort merge uses the same order", "statement": "The merge command built for sort keeps exactly the ordering flags and options of the original, in order and with their arguments, plus -m, and nothing else.", "quantifier": "every sort invocation that is parallelized", "why_tests_cant": "All flag and option lists.", "anchors": ["pash_annotations/annotation_generation/datatypes/parallelizability/TransformerFlagOptionList.py", "pash_annotations/annotation_generation/annotation_generators/ParallelizabilityInfoGeneratorSort.py", "pash_annotations/annotation_generation/datatypes/parallelizability/AggregatorSpec.py:AggregatorSpecFuncTransformer"]}
{"id": "C35", "title": "tr deleting or squeezing newlines is not plainly concatenated", "statement": "tr -d or tr -s whose last set names the newline escape is never offered a parallelizer that recombines by plain concatenation.", "quantifier": "every parsed invocation of tr", "why_tests_cant": "Sets are arbitrary strings.", "anchors": ["pash_annotations/annotation_generation/annotation_generators/ParallelizabilityInfoGeneratorTr.py", "pash_annotations/datatypes/BasicDatatypes.py:contains_new_line"]}
{"id": "C36", "title": "uniq and sed parallelizability decisions", "statement": "uniq offers nothing with -d, -D or --all-repeated and otherwise only adjacent-lines aggregators; sed offers chunks and round robin exactly when the first operand starts with '-' or 's' or contains neither d nor q, and gives no information without an operand.", "quantifier": "every invocation of uniq and sed", "why_tests_cant": "All flag lists and scripts.", "anchors": ["pash_annotations/annotation_generation/annotation_generators/ParallelizabilityInfoGeneratorUniq.py", "pash_annotations/annotation_generation/annotation_generators/ParallelizabilityInfoGeneratorSed.py"]}
{"id": "C37", "title": "Synonyms get the same annotations", "statement": "Two command lines that differ only in declared flag or option synonyms get the same input-output and parallelizability information.", "quantifier": "all shipped commands, all synonyms, all contexts", "why_tests_cant": "Contexts are unbounded.", "anchors": ["pash_annotations/parser/parser.py:parse", "pash_annotations/annotation_generation/AnnotationGeneration.py", "pash_annotations/parser/command_flag_option_info/data/*.json"]}
{"id": "C38", "title": "Inferred parallelizers", "statement": "The list returned by get_inferred_parallelizer_list is the stored list plus, for commutative commands, one round-robin-with-unwrap copy of each consecutive-chunks parallelizer; for non-commutative commands it is the stored list.", "quantifier": "every parallelizability information object", "why_tests_cant": "Lists are unbounded.", "anchors": ["pash_annotations/annotation_generation/datatypes/ParallelizabilityInfo.py:get_inferred_parallelizer_list"]}
{"id": "C39", "title": "Asking twice gives the same answer", "statement": "Calling get_inferred_parallelizer_list or unpack_info any number of times gives the same list each time.", "quantifier": "every information object and every number of calls", "why_tests_cant": "Histories of calls.", "anchors": ["pash_annotations/annotation_generation/datatypes/ParallelizabilityInfo.py:get_inferred_parallelizer_list"]}
{"id": "C40", "title": "Mapper substitutes the streams and nothing else", "statement": "For an invocation with one streaming input and one streaming output (among operands and implicit streams), the same-as-sequential mapper is the original with that input and that output replaced by the given variables, all other parts equal, and the original unchanged.", "quantifier": "every invocation with variables and every pair of fresh variables", "why_tests_cant": "All invocations.", "anchors": ["pash_annotations/annotation_generation/datatypes/parallelizability/MapperSpec.py:get_mapper", "pash_annotations/datatypes/CommandInvocationWithIOVars.py:substitute_inputs_and_outputs_in_cmd_invocation"]}
{"id": "C41", "title": "Access map stays consistent", "statement": "After substitution the access map describes exactly the variables that occur in the invocation, and each occurrence has the access kind of the occurrence it replaced.", "quantifier": "every invocation with variables, all sequences of substitutions with fresh variables", "why_tests_cant": "Histories of substitutions.", "anchors": ["pash_annotations/datatypes/CommandInvocationWithIOVars.py:replace_var_consistently", "pash_annotations/datatypes/CommandInvocationWithIOVars.py:substitute_inputs_and_outputs_in_cmd_invocation"]}
{"id": "C42", "title": "Wrong number of streams is rejected", "statement": "Substituting inputs fails if the number of supplied variables differs from the number of streaming inputs, and likewise for outputs.", "quantifier": "every invocation and every list of variables", "why_tests_cant": "Unbounded lists.", "anchors": ["pash_annotations/datatypes/CommandInvocationWithIOVars.py:substitute_inputs_in_cmd_invocation", "pash_annotations/datatypes/CommandInvocationWithIOVars.py:substitute_outputs_in_cmd_invocation"]}
{"id": "C43", "title": "Reading back substituted streams", "statement": "generate_inputs after substituting fresh distinct inputs returns exactly those inputs in order; the same for outputs when all outputs are streams.", "quantifier": "every invocation and every list of fresh distinct variables", "why_tests_cant": "Unbounded lists.", "anchors": ["pash_annotations/datatypes/CommandInvocationWithIOVars.py:generate_inputs", "pash_annotations/datatypes/CommandInvocationWithIOVars.py:generate_outputs"]}
{"id": "C44", "title": "Reading inputs and outputs is pure and complete", "statement": "generate_inputs, generate_outputs and has_other_outputs do not change the invocation, and they report all variables of that access kind occurring in the invocation.", "quantifier": "every invocation", "why_tests_cant": "All invocations.", "anchors": ["pash_annotations/datatypes/CommandInvocationWithIOVars.py:generate_inputs", "pash_annotations/datatypes/CommandInvocationWithIOVars.py:generate_outputs", "pash_annotations/datatypes/CommandInvocationWithIOVars.py:has_other_outputs"]}
{"id": "C45", "title": "Renaming a variable", "statement": "replace_var renames exactly the occurrences of the given variable and its access entry, and is a no-op when the variable does not occur.", "quantifier": "every invocation and pair of variables", "why_tests_cant": "All invocations.", "anchors": ["pash_annotations/datatypes/CommandInvocationWithIOVars.py:replace_var"]}
{"id": "C46", "title": "Removing streams", "statement": "remove_streaming_inputs leaves no streaming input among operands and implicit streams, keeps everything else in order, and drops exactly the removed variables from the access map; the same for outputs.", "quantifier": "every invocation", "why_tests_cant": "Unbounded operand lists.", "anchors": ["pash_annotations/datatypes/CommandInvocationWithIOVars.py:remove_streaming_inputs", "pash_annotations/datatypes/CommandInvocationWithIOVars.py:remove_streaming_outputs"]}
{"id": "C47", "title": "Concatenation aggregator", "statement": "The concatenation aggregator is cat of the given inputs in order into the given output, with an access map consisting of exactly these, for any number of inputs.", "quantifier": "all input lists and outputs", "why_tests_cant": "Unbounded lists.", "anchors": ["pash_annotations/annotation_generation/datatypes/parallelizability/AggregatorSpec.py:AggregatorSpecNonFunc", "pash_annotations/datatypes/CommandInvocationWithIOVars.py:make_cat_command_invocation_with_io_vars"]}
{"id": "C48", "title": "Transforming aggregator", "statement": "A two-way aggregator derived from the original command takes exactly two inputs and is the original command name with the transformed flags, the two inputs as operands and the given output; its variables all have the right access kind.", "quantifier": "every original invocation, inputs and output", "why_tests_cant": "All invocations.", "anchors": ["pash_annotations/annotation_generation/datatypes/parallelizability/AggregatorSpec.py:AggregatorSpecFuncTransformer"]}
{"id": "C49", "title": "Auxiliary pipes are wired in the documented order", "statement": "A mapper with auxiliary outputs has operands input, output, aux outputs in order; a two-way aggregator with auxiliary pipes has operands first input, its aux inputs, second input, its aux inputs, output, aux outputs; numbers that do not match are rejected.", "quantifier": "every invocation and all lists of auxiliary variables", "why_tests_cant": "Unbounded lists.", "anchors": ["pash_annotations/annotation_generation/datatypes/parallelizability/MapperSpec.py:get_mapper", "pash_annotations/annotation_generation/datatypes/parallelizability/AggregatorSpec.py:AggregatorSpecFuncStringRepresentation", "pash_annotations/annotation_generation/datatypes/parallelizability/Parallelizer.py:get_actual_mapper"]}
{"id": "C50", "title": "Flag transformers obey their documentation", "statement": "Same-as-sequential is the identity; remove and filter keep a sublist and are complementary; add keeps the original as prefix and adds only new flags; custom and empty ignore the original; a chain is composition in order.", "quantifier": "all transformers and all flag lists", "why_tests_cant": "Unbounded lists and chains.", "anchors": ["pash_annotations/annotation_generation/datatypes/parallelizability/TransformerFlagOptionList.py"]}
{"id": "C51", "title": "Deduplication", "statement": "list_deduplication keeps exactly the distinct elements in order of first occurrence.", "quantifier": "all lists", "why_tests_cant": "Unbounded lists.", "anchors": ["pash_annotations/util.py:list_deduplication"]}
{"id": "C52", "title": "Formatting shell words", "statement": "format_arg_chars is defined exactly on words built from the five known kinds, is compositional under concatenation, and different words give different texts.", "quantifier": "all argument-character trees", "why_tests_cant": "Trees of unbounded depth.", "anchors": ["pash_annotations/datatypes/BasicDatatypes.py:format_arg_chars"]}
{"id": "C53", "title": "Splitting by chunks is sound for line-wise commands", "statement": "For a command whose output on a concatenation is the concatenation of outputs, running the chunk and concatenation parallelizer gives the sequential output for every split into consecutive chunks; and in particular for grep-like filters without a limit.", "quantifier": "all line-wise commands, all inputs, all splits", "why_tests_cant": "All inputs and all split points.", "anchors": ["pash_annotations/annotation_generation/annotation_generators/ParallelizabilityInfoGeneratorGrep.py", "pash_annotations/annotation_generation/datatypes/parallelizability/Splitter.py", "pash_annotations/annotation_generation/datatypes/parallelizability/AggregatorKind.py"]}
{"id": "C54", "title": "The offered grep plan preserves output", "statement": "For every grep invocation, executing an offered parallelizer gives the output of the sequential command.", "quantifier": "all grep invocations, all inputs, all splits", "why_tests_cant": "All inputs and split points.", "anchors": ["pash_annotations/annotation_generation/annotation_generators/ParallelizabilityInfoGeneratorGrep.py"]}
{"id": "C55", "title": "The offered sort plan preserves output", "statement": "For a sort by a total order, merging sorted chunks in a binary aggregation tree of any shape gives the sorted whole, for consecutive chunks and, because sort is commutative, for any distribution of the lines.", "quantifier": "all inputs, all distributions over chunks, all aggregation trees", "why_tests_cant": "All inputs, splits and tree shapes.", "anchors": ["pash_annotations/annotation_generation/annotation_generators/ParallelizabilityInfoGeneratorSort.py", "pash_annotations/annotation_generation/datatypes/ParallelizabilityInfo.py"]}
{"id": "C56", "title": "The offered uniq plan preserves output", "statement": "Applying uniq to the last line of one part and the first line of the next and splicing gives uniq of the whole, for any number of consecutive parts.", "quantifier": "all inputs and splits", "why_tests_cant": "All inputs and splits.", "anchors": ["pash_annotations/annotation_generation/annotation_generators/ParallelizabilityInfoGeneratorUniq.py", "pash_annotations/annotation_generation/datatypes/parallelizability/AggregatorKind.py"]}
{"id": "C57", "title": "Saving never overwrites", "statement": "The command line tool, asked to save to a path, does not overwrite an existing file (help text).", "quantifier": "all file-system states and paths", "why_tests_cant": "All file-system states.", "anchors": ["pash_annotations/annotation_cli.py"]}
{"id": "C58", "title": "Equality of invocations", "statement": "Two invocations compare equal exactly when they are of the same class and have equal contents; equality is an equivalence relation.", "quantifier": "all invocations", "why_tests_cant": "All pairs and triples.", "anchors": ["pash_annotations/util_standard.py:standard_eq", "pash_annotations/datatypes/CommandInvocationInitial.py"]}
{"id": "C59", "title": "The command line report is total and faithful", "statement": "The command line tool reports on every command that parses, passes parse errors on, and the report contains the parse, the typed command with nothing lost, and the parallelizability information, empty if there is none.", "quantifier": "all command strings", "why_tests_cant": "All command strings.", "anchors": ["pash_annotations/annotation_cli.py", "pash_annotations/annotation_generation/AnnotationGeneration.py"]}
{"id": "C60", "title": "Renaming is reversible", "statement": "Renaming a variable to one that is new to the invocation and then back restores the invocation: every part and every access entry.", "quantifier": "every invocation, every variable, every new variable", "why_tests_cant": "All invocations.", "anchors": ["pash_annotations/datatypes/CommandInvocationWithIOVars.py:replace_var"]}
{"id": "C61", "title": "Substituting twice is substituting once", "statement": "Substituting fresh streams and then other fresh streams gives exactly what substituting the second streams at once gives; the intermediate streams leave no trace.", "quantifier": "every invocation and all lists of fresh streams", "why_tests_cant": "Unbounded lists, histories of length two (hence any length).", "anchors": ["pash_annotations/datatypes/CommandInvocationWithIOVars.py:substitute_inputs_and_outputs_in_cmd_invocation"]}
{"id": "C62", "title": "Removing streams is final and order does not matter", "statement": "After removing the streaming inputs, reading the inputs gives none and removing again changes nothing; the same for outputs, where only other outputs are still reported; removing inputs and outputs commute.", "quantifier": "every invocation", "why_tests_cant": "All invocations.", "anchors": ["pash_annotations/datatypes/CommandInvocationWithIOVars.py:remove_streaming_inputs", "pash_annotations/datatypes/CommandInvocationWithIOVars.py:remove_streaming_outputs", "pash_annotations/datatypes/CommandInvocationWithIOVars.py:generate_inputs", "pash_annotations/datatypes/CommandInvocationWithIOVars.py:generate_outputs"]}
{"id": "C63", "title": "Complete table of readings", "statement": "For every annotated command, how each operand is read (string, or file with which access) and whether standard input and output are used implicitly is determined by one table over command name, options and number of operands; invocations outside the table get no information.", "quantifier": "every invocation", "why_tests_cant": "All operand lists and option combinations.", "anchors": ["pash_annotations/annotation_generation/annotation_generators/InputOutputInfoGenerator_Interface.py", "pash_annotations/annotation_generation/AnnotationGeneration.py:get_input_output_info_from_cmd_invocation"]}
{"id": "C64", "title": "Complete table of plans", "statement": "For every annotated command, the stored parallelizers (splitter, mapper, aggregator, auxiliary pipes) and the commutativity are determined by one table over command name, options and first or last operand; invocations outside the table get no information.", "quantifier": "every invocation", "why_tests_cant": "All operand lists and option combinations.", "anchors": ["pash_annotations/annotation_generation/annotation_generators/ParallelizabilityInfoGenerator_Interface.py", "pash_annotations/annotation_generation/AnnotationGeneration.py:get_parallelizability_info_from_cmd_invocation"]}
{"id": "C65", "title": "The offered cut plan preserves output", "statement": "For every cut invocation, executing an offered parallelizer gives the output of the sequential command.", "quantifier": "all cut invocations, all inputs, all splits", "why_tests_cant": "All inputs and split points.", "anchors": ["pash_annotations/annotation_generation/annotation_generators/ParallelizabilityInfoGeneratorCut.py"]}
{"id": "C66", "title": "The offered tr plan preserves output", "statement": "For every tr invocation that is offered concatenation, executing it gives the output of the sequential command on every text split at ends of lines.", "quantifier": "all tr invocations, all texts, all splits at ends of lines", "why_tests_cant": "All texts and split points.", "anchors": ["pash_annotations/annotation_generation/annotation_generators/ParallelizabilityInfoGeneratorTr.py"]}
{"id": "C67", "title": "The offered sed plan preserves output", "statement": "For every sed invocation, executing an offered parallelizer gives the output of the sequential command.", "quantifier": "all sed invocations, all inputs, all splits", "why_tests_cant": "All inputs and split points.", "anchors": ["pash_annotations/annotation_generation/annotation_generators/ParallelizabilityInfoGeneratorSed.py"]}
{"id": "C68", "title": "The offered xargs plan preserves output", "statement": "For every xargs invocation, executing an offered parallelizer gives the output of the sequential command.", "quantifier": "all xargs invocations, all inputs, all splits", "why_tests_cant": "All inputs and split points.", "anchors": ["pash_annotations/annotation_generation/annotation_generators/ParallelizabilityInfoGeneratorXargs.py"]}
{"id": "C69", "title": "Plans with auxiliary pipes compute summaries", "statement": "If the mapper computes a summary of its part and the two-way aggregator computes the summary of a concatenation from two summaries, executing the plan with auxiliary pipes, with any tree of aggregators, gives the summary of the whole input; in particular bigrams_aux is served.", "quantifier": "all inputs, splits, tree shapes and variables", "why_tests_cant": "All inputs, splits and tree shapes.", "anchors": ["pash_annotations/annotation_generation/annotation_generators/ParallelizabilityInfoGeneratorBigramsAux.py", "pash_annotations/annotation_generation/datatypes/parallelizability/MapperSpec.py:get_mapper", "pash_annotations/annotation_generation/datatypes/parallelizability/AggregatorSpec.py:AggregatorSpecFuncStringRepresentation"]}
{"id": "C70", "title": "Null-terminated records are not broken", "statement": "For grep, cut and sed with -z and xargs with --null, executing an offered parallelizer, which splits at newlines, gives the output of the sequential command.", "quantifier": "all grep, cut and sed invocations with -z and all xargs invocations with --null, all texts, all splits at ends of lines", "why_tests_cant": "All texts and split points.", "anchors": ["pash_annotations/annotation_generation/annotation_generators/ParallelizabilityInfoGeneratorGrep.py", "pash_annotations/annotation_generation/annotation_generators/ParallelizabilityInfoGeneratorCut.py", "pash_annotations/annotation_generation/annotation_generators/ParallelizabilityInfoGeneratorSed.py", "pash_annotations/annotation_generation/annotation_generators/ParallelizabilityInfoGeneratorXargs.py"]}
{"id": "C71", "title": "The data-file generator writes each name once and invents none", "statement": "For every manual page, the generated data file contains no name twice, even up to dashes, and every name in it is a well-formed name that stands on a line of the page that starts with seven blanks and a dash; lines of any other form have no effect.", "quantifier": "every list of lines", "why_tests_cant": "All pages of any length.", "anchors": ["pash_annotations/parser/command_flag_option_info/args-to-json.py", "pash_annotations/parser/command_flag_option_info/manpage-to-json.sh"]}
{"id": "C72", "title": "Spellings on one line of a manual page are synonyms", "statement": "For every manual page and every line on it that lists well-formed, new spellings, the parser with the generated data file reads all of them as one flag or as one option.", "quantifier": "every page, every line, every continuation of the command", "why_tests_cant": "All pages and lines of any length.", "anchors": ["pash_annotations/parser/command_flag_option_info/args-to-json.py", "pash_annotations/parser/parser.py:parse"]}
{"id": "C73", "title": "Only the named object changes", "statement": "Whatever calls were made before and whichever of them raised, a method call on an invocation changes only that invocation and, for substitution, the two lists of new variables; inspecting, constructing, and asking for mappers and aggregators change nothing the caller has. So two invocations never influence each other, and an invocation does not depend on the lists and dictionary it was made from.", "quantifier": "all finite histories of calls by a client that catches exceptions, and every object the client has", "why_tests_cant": "All histories; sharing of mutable objects shows only in particular sequences of calls.", "anchors": ["pash_annotations/datatypes/CommandInvocationWithIOVars.py", "pash_annotations/annotation_generation/datatypes/parallelizability/MapperSpec.py:get_mapper", "pash_annotations/annotation_generation/datatypes/parallelizability/AggregatorSpec.py:get_aggregator", "pash_annotations/annotation_generation/datatypes/parallelizability/Mapper.py", "pash_annotations/annotation_generation/datatypes/parallelizability/Aggregator.py"]}
{"id": "C74", "title": "Methods do the same in every history", "statement": "In every state a client can reach, the effect of a method on an invocation and its result depend only on the invocation's contents and the arguments, as described by the properties on single invocations; substitution uses up the lists it is given, and given one list for both inputs and outputs it takes everything for the inputs.", "quantifier": "all finite histories of calls, all arguments", "why_tests_cant": "All histories.", "anchors": ["pash_annotations/datatypes/CommandInvocationWithIOVars.py:substitute_inputs_and_outputs_in_cmd_invocation", "pash_annotations/datatypes/CommandInvocationWithIOVars.py:generate_inputs", "pash_annotations/datatypes/CommandInvocationWithIOVars.py:replace_var", "pash_annotations/datatypes/CommandInvocationWithIOVars.py:remove_streaming_inputs"]}
{"id": "C75", "title": "Results are new objects", "statement": "Constructed invocations, cat commands, mappers and aggregators are objects that share no list or dictionary with anything the caller has; later changes of either side are not visible on the other.", "quantifier": "all finite histories of calls, all invocations, specifications and variables", "why_tests_cant": "All histories.", "anchors": ["pash_annotations/datatypes/CommandInvocationWithIOVars.py:CommandInvocationWithIOVars", "pash_annotations/annotation_generation/datatypes/parallelizability/MapperSpec.py:get_mapper", "pash_annotations/annotation_generation/datatypes/parallelizability/AggregatorSpec.py:get_aggregator", "pash_annotations/datatypes/CommandInvocationWithIOVars.py:make_cat_command_invocation_with_io_vars"]}
{"id": "C76", "title": "A call that raises changes nothing", "statement": "If a call on an invocation raises, everything the caller has is as before the call.", "quantifier": "all finite histories of calls, every call that raises", "why_tests_cant": "All histories and all points at which a call can raise.", "anchors": ["pash_annotations/datatypes/CommandInvocationWithIOVars.py:substitute_inputs_and_outputs_in_cmd_invocation", "pash_annotations/datatypes/CommandInvocationWithIOVars.py:replace_var", "pash_annotations/datatypes/CommandInvocationWithIOVars.py:remove_streaming_inputs"]}
{"id": "C77", "title": "Plainly written command lines are read as the manual says", "statement": "A command line whose options stand before the operands, each as a word of its own spelled as in the command's manual page, is parsed into the same options in the same order with the same arguments, up to spellings of one option, and the same operands; two spellings of one option are interchangeable.", "quantifier": "all twenty commands with a manual page and a data file, all such command lines, all spellings in the manual pages", "why_tests_cant": "All option sequences, arguments and operands.", "anchors": ["pash_annotations/parser/parser.py:parse", "pash_annotations/parser/command_flag_option_info/data"]}
{"id": "C78", "title": "Announced inputs are the files that are read", "statement": "For a plainly written command line of an annotated program, the files that the typed invocation announces as inputs, as operands or as option arguments, are exactly the files that the program reads according to its manual page.", "quantifier": "all commands with a manual page, all plainly written command lines, all file names", "why_tests_cant": "All combinations of options and operands.", "anchors": ["pash_annotations/annotation_generation/annotation_generators/", "pash_annotations/parser/parser.py:parse", "pash_annotations/parser/command_flag_option_info/data/*.json"]}
{"id": "C79", "title": "Announced outputs are the files that are written", "statement": "For a plainly written command line, the files announced as outputs are exactly the files that the program creates, changes or removes according to its manual page.", "quantifier": "all commands with a manual page, all plainly written command lines, all file names", "why_tests_cant": "All combinations of options and operands.", "anchors": ["pash_annotations/annotation_generation/annotation_generators/", "pash_annotations/parser/parser.py:parse", "pash_annotations/parser/command_flag_option_info/data/*.json"]}
{"id": "C80", "title": "Standard input is announced when it is read", "statement": "For a plainly written command line, standard input is announced, implicitly or by a dash, exactly if the program reads it according to its manual page.", "quantifier": "all commands with a manual page, all plainly written command lines", "why_tests_cant": "All combinations of options and operands.", "anchors": ["pash_annotations/annotation_generation/annotation_generators/", "pash_annotations/parser/parser.py:parse", "pash_annotations/parser/command_flag_option_info/data/*.json"]}
{"id": "C81", "title": "Standard output is announced when it is written", "statement": "For a plainly written command line, standard output is announced exactly if the program writes to it according to its manual page.", "quantifier": "all commands with a manual page, all plainly written command lines", "why_tests_cant": "All combinations of options and operands.", "anchors": ["pash_annotations/annotation_generation/annotation_generators/", "pash_annotations/parser/parser.py:parse", "pash_annotations/parser/command_flag_option_info/data/*.json"]}
{"id": "C82", "title": "Plans are checked when they are made", "statement": "The constructor of plans refuses exactly the plans that deal out lines round robin to an aggregator that needs more than adjacent lines, and otherwise keeps the parts it was given; the constructor of mapper specifications refuses exactly an unchanged command with a name or transformer of its own. Hence in every information object that can be made by appending, declaring commutative and asking, in any order, a plan with plain round robin has concatenation or an adjacent-lines aggregator.", "quantifier": "all parts, all finite histories of appending plans, declaring commutative and asking", "why_tests_cant": "All combinations of parts and all histories.", "anchors": ["pash_annotations/annotation_generation/datatypes/parallelizability/Parallelizer.py", "pash_annotations/annotation_generation/datatypes/parallelizability/MapperSpec.py:MapperSpec", "pash_annotations/annotation_generation/datatypes/ParallelizabilityInfo.py"]}
{"id": "C83", "title": "Printed invocations can be told apart", "statement": "Two parsed invocations, or two typed invocations, that differ in a flag, option, argument, operand, stream or access are printed as different texts.", "quantifier": "all pairs of invocations", "why_tests_cant": "All names, of any length and with any characters.", "anchors": ["pash_annotations/util_standard.py:standard_repr", "pash_annotations/datatypes/BasicDatatypes.py:Operand", "pash_annotations/datatypes/CommandInvocationInitial.py", "pash_annotations/datatypes/CommandInvocationWithIO.py", "pash_annotations/annotation_cli.py"]}
{"id": "C84", "title": "Queries by access find every operand once", "statement": "Each query of an invocation for operands with an access returns exactly the operands with that access, in order; for every typed invocation each operand is found by exactly one of the five queries; and the warning about other outputs is given exactly if a query for other outputs finds something. The same holds for invocations with variables and for the object that lists inputs.", "quantifier": "all invocations, all command lines the library types", "why_tests_cant": "All lists of operands and options.", "anchors": ["pash_annotations/datatypes/CommandInvocationWithIO.py:get_operands_with_config_input", "pash_annotations/datatypes/CommandInvocationWithIOVars.py:get_operands_with_stream_input", "pash_annotations/annotation_generation/datatypes/Inputs.py"]}
{"id": "C85", "title": "Help and version requests are printed once", "statement": "An invocation that asks a program for its help or version text is not split into parts: whatever is offered for it, executing it prints the text once, as the program does.", "quantifier": "all invocations with such a request, all programs that print such texts, all splits", "why_tests_cant": "All option combinations, inputs and splits.", "anchors": ["pash_annotations/annotation_generation/annotation_generators/ParallelizabilityInfoGeneratorGrep.py", "pash_annotations/annotation_generation/annotation_generators/ParallelizabilityInfoGeneratorSort.py", "pash_annotations/annotation_generation/annotation_generators/ParallelizabilityInfoGeneratorUniq.py", "pash_annotations/annotation_generation/annotation_generators/InputOutputInfoGeneratorUniq.py", "pash_annotations/parser/command_flag_option_info/data/*.json"]}
{"id": "C86", "title": "Annotations do not depend on the order of options", "statement": "Reordering the flags and options of an invocation changes neither the plans offered for it nor how its operands and standard streams are read, and reorders its typed options in the same way; the plans depend only on the name, the operands and the presence of some listed options of sort, grep, tr and uniq, not on repetitions, arguments or other options.", "quantifier": "all invocations, all orders", "why_tests_cant": "All option sequences of any length.", "anchors": ["pash_annotations/annotation_generation/annotation_generators/", "pash_annotations/annotation_generation/AnnotationGeneration.py"]}
{"id": "C87", "title": "Printed plans and reports can be told apart", "statement": "Two plans that differ are printed as different texts; if the script prints the same about parallelizability for two commands then the library says the same about them; and reports that agree after the lines that repeat the command are about commands that were parsed alike.", "quantifier": "all pairs of plans, all pairs of information objects, all pairs of commands", "why_tests_cant": "All names, of any length and with any characters; all command lines.", "anchors": ["pash_annotations/annotation_generation/datatypes/parallelizability/Parallelizer.py:__repr__", "pash_annotations/annotation_generation/datatypes/parallelizability/MapperSpec.py:__repr__", "pash_annotations/annotation_generation/datatypes/parallelizability/AggregatorSpec.py:__repr__", "pash_annotations/annotation_generation/datatypes/parallelizability/TransformerFlagOptionList.py:__repr__", "pash_annotations/annotation_generation/datatypes/ParallelizabilityInfo.py:__repr__", "pash_annotations/annotation_cli.py"]}
{"id": "C88", "title": "Generators do what the names of the methods say", "statement": "A generator of input-output information written as a sequence of calls of the methods for authors types each operand as the last call that says anything about it says, and as a streaming input if none does; the standard streams are used exactly if a call says so and no later call takes it back; the only exception is an IndexError for a method that needs an operand when there is none.", "quantifier": "all sequences of calls of any length, all invocations", "why_tests_cant": "All histories of calls and all numbers of operands.", "anchors": ["pash_annotations/annotation_generation/annotation_generators/InputOutputInfoGenerator_Interface.py", "pash_annotations/annotation_generation/datatypes/InputOutputInfo.py"]}
{"id": "C89", "title": "Plans are what the names of the methods say", "statement": "A generator of parallelizability information written as a sequence of calls of the methods for authors never raises, lists the plans named by the methods in the order of the calls and says commutative exactly if that was declared; the questions about the kind of a specification, splitter or plan node are answered yes exactly for that kind; asking for the aggregator of such a plan gives cat for concatenation, nothing for a part that is not implemented, and the aggregator otherwise.", "quantifier": "all sequences of calls of any length, all specifications, commands and streams", "why_tests_cant": "All histories of calls and all texts, commands and streams.", "anchors": ["pash_annotations/annotation_generation/annotation_generators/ParallelizabilityInfoGenerator_Interface.py", "pash_annotations/annotation_generation/datatypes/parallelizability/AggregatorSpec.py", "pash_annotations/annotation_generation/datatypes/parallelizability/Splitter.py", "pash_annotations/annotation_generation/datatypes/parallelizability/Aggregator.py:is_aggregator_concatenate", "pash_annotations/util_flag_option.py:make_arg_simple"]}
{"id": "C90", "title": "A command line run in parallel gives its output", "statement": "If a plainly written command line that reads one stream and writes standard output is parsed and typed, its files are replaced by variables, and any parallelizer offered for it is executed on any split of the stream, then the output is the output of the command line; and such executions exist.", "quantifier": "all command lines of cut, grep, sed, sort, tr, uniq and xargs, all spellings of options, all programs as in the manual pages, all streams and splits, all choices of variables", "why_tests_cant": "All command lines, inputs and splits, of any length.", "anchors": ["pash_annotations/parser/parser.py:parse", "pash_annotations/parser/command_flag_option_info/data/*.json", "pash_annotations/annotation_generation/annotation_generators/", "pash_annotations/annotation_generation/AnnotationGeneration.py", "pash_annotations/datatypes/CommandInvocationWithIOVars.py", "pash_annotations/annotation_generation/datatypes/parallelizability/"]}
{"id": "C91", "title": "Commands given by a path", "statement": "A command name with a slash is never annotated. If the path goes through a directory then all words are operands, whatever the last part of the path is called; with only slashes and dots before the name the words are read as those of the command of that name; a path through the name of a data file raises an error.", "quantifier": "every command name and every list of words", "why_tests_cant": "Names and words of any length.", "anchors": ["pash_annotations/parser/util_parser.py:get_json_data", "pash_annotations/parser/parser.py:parse", "pash_annotations/annotation_generation/AnnotationGeneration.py"]}
{"id": "C92", "title": "Property stores keep the last value", "statement": "A store of command properties gives for each name the value that was set last, through whichever store uses the same dictionary; a name that was never set has the value of the dictionary the store was made with, and none if it was made without; stores made without a dictionary share nothing.", "quantifier": "every history of making stores and dictionaries and setting properties, every name", "why_tests_cant": "All histories of calls, with any sharing.", "anchors": ["pash_annotations/annotation_generation/datatypes/CommandProperties.py", "pash_annotations/util.py:return_default_if_none_else_itself"]}
{"id": "C93", "title": "Parts can be run in parallel again", "statement": "The mapper made for a command whose mapper is the command itself is a proper invocation again, with the same command, options and text operands. Hence if executing every parallelizer that is offered gives the right output for one level, then runs in which any mappers are themselves run in parallel, to any depth and in any mixture, give the right output too; all commands with parallelizers but the two for bigrams have such mappers.", "quantifier": "all invocations, all trees of splits of any depth, all choices of parallelizers and variables", "why_tests_cant": "All depths, splits and choices.", "anchors": ["pash_annotations/annotation_generation/datatypes/parallelizability/Parallelizer.py:get_actual_mapper", "pash_annotations/annotation_generation/datatypes/parallelizability/MapperSpec.py:get_mapper", "pash_annotations/datatypes/CommandInvocationWithIOVars.py", "pash_annotations/annotation_generation/AnnotationGeneration.py"]}
{"id": "C94", "title": "Parts can go through a pipeline", "statement": "If every command of a pipeline is right when it is run in parallel alone, and all but the last concatenate their outputs, then the input can be split once, for the last command, and each part sent through the mappers of all commands: recombining only at the end gives the output of the pipeline. A command that does not concatenate, such as sort, cannot be inside.", "quantifier": "all pipelines of any length, all inputs and splits, all choices of parallelizers and variables", "why_tests_cant": "All lengths, inputs and splits.", "anchors": ["pash_annotations/annotation_generation/datatypes/parallelizability/Parallelizer.py", "pash_annotations/annotation_generation/AnnotationGeneration.py", "pash_annotations/annotation_generation/annotation_generators/"]}
{"id": "C95", "title": "Threads that keep apart do not notice each other", "statement": "If several threads call methods of invocations with variables, and an invocation that more than one thread uses is only asked (generate_inputs, generate_outputs, has_other_outputs, get_mapper, get_aggregator) and not changed, then in whatever order the threads take turns all of them come to an end, every call answers or raises what it does when its thread runs alone, and the invocations are left as by the thread that uses them. Asking an invocation that another thread changes is not covered, for it can undo the change.", "quantifier": "all numbers of threads, all sequences of calls, all invocations, all schedules of the single accesses to attributes and dictionaries", "why_tests_cant": "All interleavings of any number of threads.", "anchors": ["pash_annotations/datatypes/CommandInvocationWithIOVars.py", "pash_annotations/annotation_generation/datatypes/parallelizability/MapperSpec.py:get_mapper", "pash_annotations/annotation_generation/datatypes/parallelizability/AggregatorSpec.py:get_aggregator"]}
{"id": "C96", "title": "Saving is safe when runs are stopped or overlap", "statement": "Wherever a run of the script is stopped, and however many runs there are at the same time and in whatever order they advance, a file that is given to save to has its old contents or a complete report, no other file changes, and no file is created or removed except as announced; runs always come to an end, and a run whose file no other run uses ends as if it were alone.", "quantifier": "all arguments, files and reports, every point at which a run can be stopped, every number of runs and every order of their steps", "why_tests_cant": "All crash points and all interleavings.", "anchors": ["pash_annotations/annotation_cli.py"]}
{"id": "C97", "title": "The script's command line means one thing or does nothing", "statement": "The script accepts its arguments exactly if they are a sequence of settings of --command_invocation and --save_to, each with the name in full or shortened to the dashes and at least one letter, and with the value after = in the same word or, if the word can stand for a value, as the next word. It then works on the last command and the last file that are given, whatever came before. Every text can be given as a command or as a file with =; as a word of its own exactly those that do not begin with a dash, are only a dash, a negative number, or have a space and do not begin like an option. With any other arguments it prints its help or a usage message and touches no file; the help exactly if a call for help (--help, shortened or not, or -h, possibly with more letters) comes before anything that makes a message.", "quantifier": "all lists of words on the command line, all commands and file names, all file systems", "why_tests_cant": "A test tries a few command lines; abbreviations, repeated options, values that look like options and all texts after = cannot be listed.", "anchors": ["pash_annotations/annotation_cli.py: parser, options = parser.parse_args()"]}
{"id": "C98", "title": "Adding a command leaves the others alone", "statement": "For every table of registered commands and every set of modules: the library can be imported exactly if no module for a registered command raises something other than that a module is missing, or lacks the expected class. Then a question about a registered command is answered by the class with the registered name, and by nothing if there is no such class; a question about any other command is answered by nothing. Registering a new command under a new name, with modules as the guide says, changes no answer for another command.", "quantifier": "all tables of commands, all sets of modules with any contents, all invocations", "why_tests_cant": "A test looks at the shipped table and the shipped modules; the claim is about every table and every module that is added.", "anchors": ["pash_annotations/annotation_generation/AnnotationGeneration.py: DICT_CMD_NAME_TO_REPRESENTATION_IN_MODULE_NAMES", "pash_annotations/annotation_generation/AnnotationGeneration.py: get_input_output_info_from_cmd_invocation", "pash_annotations/annotation_generation/AnnotationGeneration.py: get_parallelizability_info_from_cmd_invocation", "pash_annotations/config/definitions.py: get_dict_cmd_name_inputoutput_info_generator_module", "docs/adding-annotations.md"]}
{"id": "C99", "title": "Which sed scripts are right in parallel", "statement": "For a sed script of commands with at most one address each: if it treats every line alone (no line numbers, no last line, nothing kept in the hold space, no further lines read, no early end), every execution of what is offered gives the output of the command, whatever the regular expressions match; nothing is offered for such a script if it contains d or q anywhere and does not begin with s or a dash. The offered scripts =, $p, $=, x, Np, n;p, 1!G;h;$p with -n, and any that end with q, are right exactly for the splits stated: at most one part not empty, or parts that begin at suitable lines.", "quantifier": "all scripts in the read part of the language, all regular expression semantics, all inputs, all splits", "why_tests_cant": "All scripts, inputs and split points; the check in the code looks at letters of the text only.", "anchors": ["pash_annotations/annotation_generation/annotation_generators/ParallelizabilityInfoGeneratorSed.py", "pash_annotations/annotation_generation/annotation_generators/Generator_Interface.py: does_first_operand_contain"]}
{"id": "C100", "title": "A data file means what it lists", "statement": "For every directory of data files with any contents, the shipped one among them: a command whose file lists flags and options is read as these say, for every list of arguments, and its option arguments are typed as the file says; the commands for which a file is of no use are rejected whatever their arguments are, and exactly those files are that do not have the required shape. Two spellings are interchangeable exactly if the file gives them the same first spelling in the last entry that has them; arguments can be read in two pieces exactly if no option looks like a cluster of flags; a cluster means the flags it consists of exactly if each of these is its own first spelling. Changing or adding the file of one command changes nothing for the others.", "quantifier": "all directories of data files, all JSON values in them, all commands and arguments", "why_tests_cant": "A test looks at the shipped files; the claim is about every file that a contributor writes.", "anchors": ["pash_annotations/parser/parser.py: parse", "pash_annotations/parser/util_parser.py: get_json_data", "pash_annotations/annotation_generation/annotation_generators/InputOutputInfoGenerator_Interface.py: get_dict_option_to_class_for_arg", "docs/adding-annotations.md"]}
{"id": "C101", "title": "Data files are texts", "statement": "The text of a data file is read as the JSON value it writes, in any layout and with any escapes, and rejected exactly if it writes none. What the library prints for a value without numbers is read back as the same value and uses only printable ASCII. Hence a data file means what its text lists; what the scripts print for a manual page can be put in place as the data file of a command, which is then read by the flags and options found on the page; it can be used for typing as it is exactly if no option argument on the page is called FILE, DIR or DIRECTORY. The texts of the shipped files are the tables that the other properties are about.", "quantifier": "all texts, all JSON values, all layouts, all manual pages, all directories of data files, all commands and arguments", "why_tests_cant": "Texts, layouts and pages are infinitely many; a test of the parser uses the shipped files.", "anchors": ["pash_annotations/parser/util_parser.py: get_json_data", "pash_annotations/parser/command_flag_option_info/args-to-json.py: parse", "pash_annotations/parser/command_flag_option_info/manpage-to-json.sh", "pash_annotations/parser/command_flag_option_info/data"]}
{"id": "C102", "title": "Only files of the library describe commands", "statement": "Reading a command line opens no file but the data file of the command and the default file, both in the data directory of the library. The file that is opened is the one to which the path made from the name leads, through directories and symbolic links; the default file describes the command exactly if there is no such file. Names that do not leave the data directory mean the same on all machines with the same data directory, wherever the library is installed and whatever other files there are.", "quantifier": "all trees of directories, files and symbolic links, all places of installation, all limits of the operating system, all names of commands and all arguments", "why_tests_cant": "A test runs on one machine with one installation and the names that its author thought of.", "anchors": ["pash_annotations/parser/util_parser.py: get_json_data", "pash_annotations/parser/parser.py: parse", "pash_annotations/annotation_generation/annotation_generators/InputOutputInfoGenerator_Interface.py: get_dict_option_to_class_for_arg"]}
{"id": "C103", "title": "The offered col plan preserves output", "statement": "If col reads one stream and a parallelizer that is offered for it is executed on the parts of a text, the result is the output of col on the text.", "quantifier": "all command lines of col with -b, -f, -h or -x, all implementations of col as in its manual, all texts without half-line motions and all splits of them at ends of lines, both splitters", "why_tests_cant": "The texts and splits are infinitely many; a text where the cursor goes up into another part is easily missed.", "anchors": ["pash_annotations/annotation_generation/annotation_generators/ParallelizabilityInfoGeneratorCol.py: generate_info", "pash_annotations/annotation_generation/annotation_generators/InputOutputInfoGeneratorCol.py: generate_info"]}
{"id": "C104", "title": "Plans for programs of one's own", "statement": "Some annotated commands are no standard programs: alt_bigrams_aux, bigrams_aux, custom_sort, custom_tr, set_diff, test_one and test_two. What they compute is up to the user. Their command lines are read with the options that are given. What is offered for them can be executed, and gives the output of the command for every split exactly if the programs obey one law: the program that recombines, given the outputs for two parts, gives the output for both parts together; for round robin without marked blocks also: the output does not depend on the order of the lines.", "quantifier": "all programs under these names, all inputs and all splits that the offered splitters can make, all trees of aggregators, all command lines of these commands", "why_tests_cant": "The programs are unknown when the library is tested.", "anchors": ["pash_annotations/annotation_generation/annotation_generators/ParallelizabilityInfoGeneratorAltBigramsAux.py: generate_info", "pash_annotations/annotation_generation/annotation_generators/ParallelizabilityInfoGeneratorCustomSort.py", "pash_annotations/annotation_generation/annotation_generators/ParallelizabilityInfoGeneratorSetDiff.py: generate_info", "pash_annotations/annotation_generation/annotation_generators/ParallelizabilityInfoGeneratorTestOne.py: generate_info", "pash_annotations/parser/command_flag_option_info/data/custom_sort.json"]}
{"id": "C105", "title": "Data files in every encoding", "statement": "The bytes of a data file are read as a JSON value exactly if they are a JSON text that writes the value, in UTF-8, UTF-16 or UTF-32, in either order of the bytes, with or without a mark at the beginning. Bytes never stand for two values. Bytes that hold no value raise an error and are not read as something else.", "quantifier": "all sequences of bytes, all JSON texts in all these encodings, all machines and names of commands", "why_tests_cant": "The encoding is guessed from the first bytes; a test tries a few files, in the encoding of its author's editor.", "anchors": ["pash_annotations/parser/util_parser.py: get_json_data", "pash_annotations/parser/parser.py: parse"]}
{"id": "C106", "title": "Installing keeps the meaning of command lines", "statement": "Installing a source tree copies the modules of the packages and the visible data files in the data directory itself, with their contents, and nothing else; it works exactly if these and the README can be read. On every machine where the result is installed, command lines are read and generators are made as on a machine with the source tree, for every command whose name has no slash and does not begin with a dot. Other names, such as paths, get the default description after installation, whatever the source tree has for them. A data file and generators that a contributor adds are installed.", "quantifier": "all source trees, all machines and places of installation, all names of commands and command lines", "why_tests_cant": "Tests run from the source tree; they do not install it, and not with files that do not exist yet.", "anchors": ["setup.py: setup", "MANIFEST.in", "pash_annotations/parser/util_parser.py: get_json_data"]}
{"id": "C107", "title": "Changes of a data file reach only the lines that use them", "statement": "If the data file of a command is replaced by another version, a command line is read exactly as before if both versions say the same about the words of the line and about the letters of its clusters; all command lines are read as before exactly if both say the same about all words. So an entry that is added or removed anywhere changes no line that does not use one of its spellings, and the order of the entries does not matter if no spelling is in two of them. The library reads the file again when annotations are asked for: the types of option arguments are then those of the new version, an option that is no longer there raises a KeyError, and nothing else does.", "quantifier": "All pairs of versions of a data file, all directories of data files, all command lines, all invocations", "why_tests_cant": "Pairs of files and all lines are not enumerable; a clash of two spellings shows only with the right order and the right line", "anchors": ["pash_annotations/parser/parser.py:parse", "pash_annotations/parser/util_parser.py:get_json_data", "pash_annotations/annotation_generation/annotation_generators/InputOutputInfoGenerator_Interface.py:get_dict_option_to_class_for_arg"]}
{"id": "C108", "title": "A parallelizer that is offered can be carried out", "statement": "For every invocation that the library types and offers a parallelizer for whose parts are all declared to be implemented, the actual mapper can be made with one new variable for the input and one for the output, and the outputs can be recombined with new variables. If the mapper cannot be made, an error is raised; no mapper is made that loses an input or output.", "quantifier": "all command lines, all typed invocations, all offered parallelizers, all ways to put variables in the place of files", "why_tests_cant": "Whether it works depends on the number of files on the command line, and on commands that are taken to read standard input besides their files.", "anchors": ["pash_annotations/annotation_generation/datatypes/parallelizability/Parallelizer.py: get_actual_mapper, get_actual_aggregator", "pash_annotations/annotation_generation/datatypes/parallelizability/MapperSpec.py: get_mapper", "pash_annotations/datatypes/CommandInvocationWithIOVars.py: substitute_inputs_and_outputs_in_cmd_invocation"]}
{"id": "C109", "title": "Names of inputs in the output", "statement": "Where a parallelizer is offered for a command that prints the name of its input with the lines, as grep does with -H, carrying it out gives what the command gives on the whole input, although the parts are found under the names of pipes or temporary files. If the output does not depend on the names, they do no harm.", "quantifier": "All invocations of grep with options that choose what is printed for a line, a pattern and a file; all splits, all names of the parts, all contents, all programs that work in this way", "why_tests_cant": "The name of a part is chosen when the plan is carried out; a test that compares the lines without names, or with one part that keeps its name, does not notice", "anchors": ["pash_annotations/annotation_generation/annotation_generators/ParallelizabilityInfoGeneratorGrep.py:ParallelizabilityInfoGeneratorGrep", "pash_annotations/annotation_generation/datatypes/parallelizability/MapperSpec.py:MapperSpec.get_mapper", "pash_annotations/annotation_generation/datatypes/parallelizability/AggregatorSpec.py:AggregatorSpec.get_aggregator"]}
{"id": "C110", "title": "Parallelizers and the older annotations", "statement": "The older annotations that the repository still contains class every invocation of a command as stateless, parallelizable pure, pure or side-effectful. What the library offers for an invocation fits its class: plans that concatenate for stateless commands, some plan for parallelizable pure ones, with the aggregator and mapper named in the file, and nothing for the others.", "quantifier": "All command lines of commands that the older annotations describe, all parallelizers that are offered for them", "why_tests_cant": "The two descriptions are written in different languages and differ only for certain combinations of options and operands", "anchors": ["pash_annotations/old_annotations/README.md", "pash_annotations/annotation_generation/AnnotationGeneration.py:get_parallelizability_info_from_cmd_invocation", "pash_annotations/old_annotations/grep.json", "pash_annotations/old_annotations/tr.json", "pash_annotations/old_annotations/sort.json"]}
{"id": "C111", "title": "Inputs whose last line is not complete", "statement": "A parallelizer that is right for lists of lines is right for files too, also when the last line has no newline at its end: if the file is cut or dealt at the ends of lines, carrying out a plan that concatenates or merges gives, byte for byte, what the command gives on the whole file. This holds for commands that complete the last line (grep, cut, sort) and for those that leave it as it is (sed).", "quantifier": "All texts, all ways to cut or deal them at the ends of lines, all parallelizers that concatenate or merge, all programs that work in one of these ways", "why_tests_cant": "Where the cuts fall and whether the last part is empty depends on the file and the number of workers; cuts inside of lines go wrong only for some programs", "anchors": ["pash_annotations/annotation_generation/datatypes/parallelizability/Splitter.py:Splitter", "pash_annotations/annotation_generation/datatypes/parallelizability/AggregatorSpec.py:AggregatorSpec.get_aggregator", "pash_annotations/annotation_generation/datatypes/parallelizability/MapperSpec.py:MapperSpec.get_mapper"]}
{"id": "C112", "title": "Exit statuses of parallel runs", "statement": "Where a parallelizer is offered, carrying it out gives not only the output but also the exit status of the command on the whole input, so that a script that tests the status, as with grep and a pipeline after it, takes the same branch.", "quantifier": "All command lines with an offered parallelizer that concatenates or sorts, all inputs, all splits, all programs with statuses", "why_tests_cant": "Depends on which lines match in which part; most tests compare outputs only", "anchors": ["pash_annotations/annotation_generation/annotation_generators/ParallelizabilityInfoGeneratorGrep.py:ParallelizabilityInfoGeneratorGrep", "pash_annotations/annotation_generation/datatypes/parallelizability/AggregatorSpec.py:AggregatorSpec.get_aggregator", "pash_annotations/annotation_generation/datatypes/parallelizability/Parallelizer.py:Parallelizer.get_actual_aggregator"]}
{"id": "C113", "title": "Printing shows what equality compares", "statement": "The printed text of an invocation, of a mapper or aggregator specification or of a plan names the class and lists the attributes that == compares, each under its name and with its own text; two objects that compare equal print the same text.", "quantifier": "All invocations, specifications and plans, all pairs of them, and for invocations with variables all histories of renamings", "why_tests_cant": "Depends on the order in which dictionaries were filled; logs and test reports are compared as texts", "anchors": ["pash_annotations/util_standard.py:standard_repr", "pash_annotations/util_standard.py:standard_eq", "pash_annotations/datatypes/CommandInvocationWithIOVars.py:CommandInvocationWithIOVars.replace_var", "pash_annotations/annotation_generation/datatypes/parallelizability/Parallelizer.py:Parallelizer.__repr__"]}
{"id": "C114", "title": "Streams and the older annotations", "statement": "For every command that both describe, the older annotation and the library name the same inputs and outputs for an invocation: the files and standard streams that are read as streams, those that are read as configuration and those that are written, in the same order. (Invocations that the older annotation calls side-effectful, and arguments of options, are left out.)", "quantifier": "All invocations of commands that the older annotations and the library describe", "why_tests_cant": "The older annotations look at the number of operands and at single options; where they go wrong depends on combinations of operands, dashes and options", "anchors": ["pash_annotations/old_annotations/README.md", "pash_annotations/annotation_generation/AnnotationGeneration.py:get_input_output_info_from_cmd_invocation", "pash_annotations/old_annotations/grep.json", "pash_annotations/old_annotations/sort.json", "pash_annotations/old_annotations/cat.json"]}
{"id": "C115", "title": "Several inputs are read through cat", "statement": "No mapper can be made for a command with several inputs. If a caller puts the `cat` that the library makes before the command, removes the inputs from the invocation with the library's method and lets the command read the output of `cat`, then the invocation is the same command with the same flags, options and text operands, reads only that output, and writes where it wrote; `cat` reads the files in the order in which they are given; and executing an offered plan on the output of `cat` gives the output of the command on its files.", "quantifier": "All invocations with any number of inputs, offered plans, programs, contents and names of files, and splits", "why_tests_cant": "Whether a command treats several files as one depends on its options and on the contents: names before lines, incomplete last lines", "anchors": ["pash_annotations/datatypes/CommandInvocationWithIOVars.py:CommandInvocationWithIOVars.make_cat_command_invocation_with_io_vars", "pash_annotations/datatypes/CommandInvocationWithIOVars.py:CommandInvocationWithIOVars.remove_streaming_inputs", "pash_annotations/annotation_generation/annotation_generators/ParallelizabilityInfoGeneratorGrep.py", "pash_annotations/annotation_generation/annotation_generators/ParallelizabilityInfoGeneratorSort.py"]}
{"id": "C116", "title": "The commands for a pipeline can run at the same time in any order", "statement": "Take a pipeline of commands whose plans concatenate, or sort, and let a caller make the mappers of all stages for each part and the aggregators of the last stage with the library, with a new variable for each output. Then every variable made has exactly one writer, and every variable other than the result exactly one reader. If all commands run at the same time, each writing whenever it likes what its inputs so far determine, then whatever the order, the result is always a beginning of the same output, something can be done until all commands have stopped, there are finitely many steps, and in the end the result is the output of the pipeline run in sequence if the stages are right when run in parallel alone.", "quantifier": "All pipelines of such stages, numbers and contents of parts, new variables, trees of aggregators, programs and schedules", "why_tests_cant": "Schedules of concurrent commands cannot be enumerated", "anchors": ["pash_annotations/annotation_generation/datatypes/parallelizability/Parallelizer.py:Parallelizer.get_actual_mapper", "pash_annotations/annotation_generation/datatypes/parallelizability/Parallelizer.py:Parallelizer.get_actual_aggregator", "pash_annotations/annotation_generation/datatypes/parallelizability/MapperSpec.py:MapperSpec.get_mapper", "pash_annotations/annotation_generation/datatypes/parallelizability/AggregatorSpec.py:AggregatorSpec.get_aggregator", "pash_annotations/datatypes/CommandInvocationWithIOVars.py:CommandInvocationWithIOVars.substitute_inputs_and_outputs_in_cmd_invocation"]}
{"id": "C117", "title": "Pipes of any size do not block the commands for a pipeline", "statement": "Connect the commands made for a pipeline as before by pipes that hold only so much, at least one element each, and let the parts be files. Each command is a process that reads one element, waits for one, writes one when there is room, or stops. Whatever the processes (as long as each alone writes what its program writes), the sizes of the pipes and the order, what has been written to the result is a beginning of the output, there are finitely many steps, and when no process can go on, the writer of the result has stopped and the whole output has been written: no deadlock.", "quantifier": "All pipelines of stages that concatenate or sort, parts, processes, sizes of pipes of at least one, and schedules", "why_tests_cant": "Deadlocks depend on the sizes of pipes, on the amount of data and on the schedule", "anchors": ["pash_annotations/annotation_generation/datatypes/parallelizability/Parallelizer.py:Parallelizer.get_actual_mapper", "pash_annotations/annotation_generation/datatypes/parallelizability/Parallelizer.py:Parallelizer.get_actual_aggregator", "pash_annotations/datatypes/CommandInvocationWithIOVars.py:CommandInvocationWithIOVars.make_cat_command_invocation_with_io_vars", "pash_annotations/datatypes/CommandInvocationWithIOVars.py:CommandInvocationWithIOVars.substitute_inputs_and_outputs_in_cmd_invocation"]}
{"id": "C118", "title": "The commands for a plan with auxiliary pipes can run at the same time in any order", "statement": "Take a plan with auxiliary pipes whose aggregator is given as text, and let a caller make the mapper for each part and a tree of two-way aggregators with the library, with a different variable for each input and output. Then every variable made is written by exactly one command, every variable other than the results is read by exactly one, and no command uses standard input or output. If all commands run at the same time, each writing to each of its outputs whenever it likes what its inputs so far determine, then whatever the order, the results are always beginnings of what one execution of the plan gives, something can be done until everything has been written, there are finitely many steps, and in the end the results are what that execution gives: for bigrams_aux and parts that are not empty, the bigrams of the whole input, its first and its last line.", "quantifier": "All plans with auxiliary pipes, numbers and contents of parts, variables, trees of aggregators, programs and schedules", "why_tests_cant": "Races depend on the schedule, and the trees, the number of auxiliary pipes and the contents are unbounded", "anchors": ["pash_annotations/annotation_generation/datatypes/parallelizability/Parallelizer.py:Parallelizer.get_actual_mapper", "pash_annotations/annotation_generation/datatypes/parallelizability/Parallelizer.py:Parallelizer.get_actual_2_ary_aggregator_with_aux", "pash_annotations/annotation_generation/datatypes/parallelizability/AggregatorSpec.py:AggregatorSpecFuncStringRepresentation.get_actual_2_ary_aggregator_with_aux", "pash_annotations/annotation_generation/datatypes/parallelizability/MapperSpec.py:MapperSpec.get_mapper"]}
{"id": "C119", "title": "If commands that carry out a plan are killed, lines can be missing from the result but none is wrong", "statement": "Run the commands made for a pipeline whose plans concatenate, or sort, at the same time, and kill any of them at any moment, or let inputs break off; readers then see an end of input. At every moment each variable holds a beginning of what its writer gives for what its inputs hold, and when all have stopped exactly such contents are possible. If the stages are right when run in parallel alone, the result is at every moment a sublist of the output of the pipeline run in sequence, in order, and ordered for a sort. For plans that concatenate the possible results are exactly the beginnings of beginnings of the outputs of the parts, one after the other. So killing one command, other than the one that writes the result, can remove the output of a part from the middle, although all commands have stopped.", "quantifier": "All pipelines of such stages, parts, programs, schedules, sets of killed commands and moments at which they are killed", "why_tests_cant": "Crash points and schedules cannot be enumerated", "anchors": ["pash_annotations/annotation_generation/datatypes/parallelizability/Parallelizer.py:Parallelizer.get_actual_mapper", "pash_annotations/annotation_generation/datatypes/parallelizability/Parallelizer.py:Parallelizer.get_actual_aggregator", "pash_annotations/annotation_generation/datatypes/parallelizability/MapperSpec.py:MapperSpec.get_mapper", "pash_annotations/annotation_generation/datatypes/parallelizability/AggregatorSpec.py:AggregatorSpec.get_aggregator"]}
{"id": "C120", "title": "If commands that carry out a plan with auxiliary pipes are killed, lines can be missing from the result but none is wrong", "statement": "Run the commands made for a plan with auxiliary pipes at the same time, and kill any of them at any moment, or let inputs break off; the readers of all outputs of a killed command then see an end of input. At every moment each variable holds a beginning of what its writer gives for what its inputs hold, and when all have stopped exactly such contents are possible. For bigrams_aux the result is then at every moment a sublist of the bigrams of the whole input, so that lines can be missing but none is wrong.", "quantifier": "All plans with auxiliary pipes, parts, trees of aggregators, programs, schedules, sets of killed commands and moments at which they are killed", "why_tests_cant": "Crash points and schedules cannot be enumerated", "anchors": ["pash_annotations/annotation_generation/datatypes/parallelizability/Parallelizer.py:Parallelizer.get_actual_mapper", "pash_annotations/annotation_generation/datatypes/parallelizability/Parallelizer.py:Parallelizer.get_actual_2_ary_aggregator_with_aux", "pash_annotations/annotation_generation/datatypes/parallelizability/MapperSpec.py:MapperSpec.get_mapper", "pash_annotations/annotation_generation/datatypes/parallelizability/AggregatorSpec.py:AggregatorSpecFuncStringRepresentation.get_actual_2_ary_aggregator_with_aux", "pash_annotations/annotation_generation/annotation_generators/ParallelizabilityInfoGeneratorBigramsAux.py:ParallelizabilityInfoGeneratorBigramsAux"]}
{"id": "C121", "title": "What the older annotations call stateless treats each line by itself", "statement": "If a file of the older annotations calls an invocation stateless, which their manual explains as working on individual lines without state, then, for programs as in their manuals, the output for a concatenation of two inputs is the concatenation of their outputs (on texts: if the first one ends with a newline).", "quantifier": "All invocations of grep, cut, tr, xargs, col and cat with the flags and options their specifications are about, all programs as in the manuals, all inputs", "why_tests_cant": "The class is used for all inputs; the programs are not part of the library", "anchors": ["pash_annotations/old_annotations/grep.json", "pash_annotations/old_annotations/cut.json", "pash_annotations/old_annotations/tr.json", "pash_annotations/old_annotations/xargs.json", "pash_annotations/old_annotations/col.json", "pash_annotations/old_annotations/cat.json"]}
{"id": "C122", "title": "A data file that is only partly written is not misread", "statement": "If the writing of the data files was interrupted, each file in any place, then each command is described as by the complete files or there is an error: no command line is read in another way, and no other inputs and outputs are derived. The beginnings of a data file that are accepted are those that lack only blanks at the end.", "quantifier": "All machines, all places where the writing of each file stops, all data files that hold an object, in all encodings and layouts, all commands and arguments", "why_tests_cant": "There are as many places to stop as there are bytes, and for each file and each encoding others", "anchors": ["pash_annotations/parser/util_parser.py:get_json_data", "pash_annotations/parser/parser.py:parse", "pash_annotations/annotation_generation/annotation_generators/InputOutputInfoGenerator_Interface.py:InputOutputInfoGeneratorInterface"]}
{"id": "C123", "title": "A line that is read while data files are exchanged is read as before or as after", "statement": "While data files are exchanged one after the other, each command is described by the files from before or by those from after the exchange, whenever its file and the default file are opened; so each line is read, and inputs and outputs are derived, as before or as after it.", "quantifier": "All machines before and after, all moments at which the two files are opened, all orders of the changes, all commands and arguments", "why_tests_cant": "It depends on what happens between two openings of files", "anchors": ["pash_annotations/parser/util_parser.py:get_json_data", "pash_annotations/parser/parser.py:parse", "pash_annotations/annotation_generation/annotation_generators/InputOutputInfoGenerator_Interface.py:InputOutputInfoGeneratorInterface"]}
{"id": "C124", "title": "The reductions listed in the older notes combine the outputs of parts", "statement": "For each command in the table of reductions of the older annotations, the reduction makes from the outputs of the command for two parts of an input its output for the whole input, wherever the input is cut (between characters for `tr` and `wc`, between lines for the others).", "quantifier": "All inputs and all places at which they are cut; all translations, squeezed sets, keys, orders and ways to number lines", "why_tests_cant": "Inputs have any length, and the reductions fail only for certain cuts", "anchors": ["pash_annotations/old_annotations/p_stats/mr.md"]}
{"id": "C125", "title": "Pipes of any size do not block the commands for a plan with auxiliary pipes", "statement": "Run the commands made for a plan with auxiliary pipes at the same time, with pipes that hold only so much: a command that writes to a full pipe waits. Whatever the sizes of the pipes are, if each command alone does what its program does, then they do not come to a state in which all wait for each other: at the end every command has stopped and the outputs are complete. At any time what has been written is a beginning of what it should be.", "quantifier": "All plans with auxiliary pipes, parts, trees of aggregators, programs, orders in which commands read and write, sizes of pipes and schedules", "why_tests_cant": "It depends on the sizes of pipes, on the schedule and on the order in which commands read their inputs; inputs longer than a pipe are needed", "anchors": ["pash_annotations/annotation_generation/datatypes/parallelizability/Parallelizer.py:Parallelizer.get_actual_mapper", "pash_annotations/annotation_generation/datatypes/parallelizability/Parallelizer.py:Parallelizer.get_actual_2_ary_aggregator_with_aux"]}
