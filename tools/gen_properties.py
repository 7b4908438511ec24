#!/usr/bin/env python3
"""Writes properties.jsonl: the catalogue of properties, one JSON object per line."""
import json, os
P = []
def p(title, statement, quantifier, why, *anchors):
    P.append(dict(id=f"C{len(P)+1:02d}", title=title, statement=statement, quantifier=quantifier,
                  why_tests_cant=why, anchors=list(anchors)))
A="pash_annotations/"
PARSE=A+"parser/parser.py:parse"
IOI=A+"annotation_generation/datatypes/InputOutputInfo.py"
AG=A+"annotation_generation/AnnotationGeneration.py"
GEN=A+"annotation_generation/annotation_generators/"
PZ=A+"annotation_generation/datatypes/parallelizability/"
VARS=A+"datatypes/CommandInvocationWithIOVars.py"
DATA=A+"parser/command_flag_option_info/data/*.json"

p("Quoting round trip", "If an argument vector is rendered with shell quoting (every word quoted the way Python's shlex.quote does, joined by single blanks), then parse sees exactly that vector: the command name is the first word and no word is split, merged, dropped or altered.",
  "every non-empty list of argument strings over all characters, including quotes, backslashes, blanks, newlines and empty words",
  "Arguments are unbounded strings over an unbounded alphabet; a test can only try some of them.", PARSE, "python stdlib shlex.split / shlex.quote (called at parser.py:12)")
p("Which command lines are rejected", "parse fails on an unterminated quote, a dangling backslash and a line with no word at all. On every other line the name of the command decides: it fails if the name contains a NUL character or is a path through a data file, and otherwise, unless the name goes up by .. or is too long for a file name, it returns an invocation.",
  "every input string", "The set of strings is infinite; absence of other exceptions cannot be sampled.", PARSE, A+"parser/util_parser.py:get_json_data")
p("Nothing is lost or invented by parse", "Spelling the flags and options of the parse result back out gives, up to declared synonyms and flag clusters, exactly the words before the first operand, and the operand list is exactly the remaining words, in order and unchanged.",
  "every command and every word list", "Must hold for word lists of every length and content.", PARSE)
p("Parse result is the one the grammar prescribes", "The result of parse is the unique derivation of a small declarative grammar: a declared flag spelling, else a declared option spelling followed by its argument, else a '-' cluster all of whose letters are declared flags; the first word that is none of these starts the operands.",
  "every option database, every command and every word list", "Equivalence with a grammar ranges over all databases and word lists.", PARSE, A+"parser/parser.py:get_set_of_all_flags", A+"parser/parser.py:get_set_of_all_options", A+"parser/parser.py:are_all_individually_flags")
p("Everything after the first operand is an operand", "Once a word is taken as an operand, all following words are operands whatever they look like; appending words after an operand never changes the flags and options already recognised, except when the operand is a trailing option name that lacked its argument.",
  "every command, every word list and every continuation", "Continuations are unbounded.", PARSE)
p("Flag synonyms are interchangeable", "For every shipped command, replacing one spelling of a flag by another spelling declared for the same flag, at a position where a flag is recognised, does not change the parse result.",
  "all shipped commands, all declared flag synonyms, all contexts before and after", "Contexts are unbounded word lists.", PARSE, A+"parser/parser.py:get_dict_flag_to_primary_repr", DATA)
p("Option synonyms are interchangeable", "For every shipped command, replacing one spelling of an option by another spelling declared for the same option, at a position where options are recognised and followed by an argument, does not change the parse result.",
  "all shipped commands, all declared option synonyms, all arguments and contexts", "Contexts and arguments are unbounded.", PARSE, A+"parser/parser.py:get_dict_option_to_primary_repr", DATA)
p("Clustered flags equal separate flags", "A cluster such as -abc parses like -a -b -c.", "all shipped commands, all clusters, all contexts",
  "Clusters have unbounded length and unbounded context.", PARSE, A+"parser/parser.py:are_all_individually_flags", DATA)
p("Parsing is compositional in the option prefix", "If a word list parses with no operands, then parsing it followed by more words gives its flags and options followed by those of the remaining words, with the operands of the remaining words.",
  "all shipped commands, all prefixes, all continuations", "Unbounded prefixes and continuations.", PARSE)
p("Words without a leading dash are never flags or options", "A word that does not begin with '-' is never recognised as a flag or an option; file names are operands.",
  "all shipped commands and all words", "Words range over all strings.", PARSE, DATA)
p("Double dash and attached values", "'--' and words containing '=' are not interpreted: they start the operand list and every later word is an operand (README says the parser splits on equal signs).",
  "all shipped commands, all words containing '=', all contexts", "Words and contexts are unbounded.", PARSE, "README.md (section Parser)", DATA)
p("Re-parsing a rendered parse result", "Rendering a parse result as a quoted command line and parsing it again gives the same invocation, so the data structure is a faithful representation of the command line.",
  "every command line that parses, for every shipped command", "Ranges over all command lines.", PARSE, A+"datatypes/CommandInvocationInitial.py:CommandInvocationInitial")
p("Option arguments can always be typed", "For every parsed invocation the class and access kind of each option argument is found: typing the flag and option list never fails, whatever the command.",
  "every command line that parses", "Needs the parser's normalisation and the option database to agree on all inputs.", GEN+"InputOutputInfoGenerator_Interface.py:get_flagoption_list_typer_for_specific_list", GEN+"InputOutputInfoGenerator_Interface.py:get_dict_option_to_class_for_arg", DATA)
p("Typing preserves the invocation", "Applying the input-output information produced for a parsed invocation never fails and keeps the command name, every flag, every option name and argument text, and every operand text, in the same number and order.",
  "every parsed invocation with input-output information", "Lists have unbounded length; truncation shows only for particular lengths.", IOI+":apply_input_output_info_to_command_invocation", GEN+"InputOutputInfoGenerator_Interface.py")
p("Dash means the standard stream of the right direction", "A typed file argument is standard input exactly when its text is '-' and its access is an input, standard output exactly when its text is '-' and its access is an output, and otherwise the file of that name; its access kind is the declared one.",
  "all argument texts and all access kinds", "Argument texts are all strings.", IOI+":apply_typer_to_arg", A+"util.py:compute_actual_el_for_input", A+"util.py:compute_actual_el_for_output")
p("Access kinds are partitioned", "Every access kind is exactly one of input or output, the named predicates are mutually exclusive, and the textual names map one to one onto the kinds with every other text rejected.",
  "all access kinds and all strings", "Rejection ranges over all strings.", A+"datatypes/AccessKind.py")
p("Side-effect warning is exact", "has_other_outputs on the input-output information is true exactly when the typed invocation contains an option argument or an operand with other-output access.",
  "every parsed invocation with input-output information", "Ranges over all invocations.", IOI+":has_other_outputs", A+"datatypes/CommandInvocationWithIO.py:get_operands_with_other_output", A+"datatypes/CommandInvocationWithIO.py:get_options_with_other_output")
p("Which commands have other outputs", "Among parsed invocations that get input-output information, exactly these report other outputs: mv always, rm and mkfifo when they have an operand, sort when -T is given.",
  "every parsed invocation of every command", "A classification over all commands and all argument lists.", IOI+":has_other_outputs", GEN, DATA)
p("Asking for annotations never raises", "The two annotation look-ups return a value for every invocation; commands without a generator, and only these or rejected usages, give no information.",
  "every invocation, parsed or hand-built", "Absence of an exception over all invocations.", AG+":get_input_output_info_from_cmd_invocation", AG+":get_parallelizability_info_from_cmd_invocation")
p("When input-output information is refused", "For parsed invocations, no input-output information is given exactly when the command has no generator or the usage is one of: awk, grep or sed without script option and without operand; comm without exactly two operands; set_diff without exactly one; uniq with more than two; mv without -t and without operand or with several -t; wc with --files0-from.",
  "every parsed invocation", "Exactness over all commands and argument lists.", AG, GEN)
p("Implicit streams are the standard ones", "Whenever input-output information is produced, the implicit streaming input is absent or standard input with stream-input access, and the implicit streaming output is absent or standard output with stream-output access.",
  "every invocation of every command", "Invariant over all generators and all argument lists.", GEN, IOI)
p("Plain filters read their operands or standard input", "For cat, cut, head, tail and wc, every operand is a streaming input, standard input is read implicitly exactly when there is no operand, and standard output is always written.",
  "every invocation of those commands with typed options", "Operand lists are unbounded.", GEN+"InputOutputInfoGeneratorCat.py", GEN+"InputOutputInfoGeneratorCut.py", GEN+"InputOutputInfoGeneratorHead.py", GEN+"InputOutputInfoGeneratorTail.py", GEN+"InputOutputInfoGeneratorWc.py")
p("grep and awk: pattern versus files", "Without a script option the first operand is a configuration string and the others are streaming inputs; with one, all operands are streaming inputs; standard input is read implicitly exactly when no streaming operand is left; grep writes standard output exactly when -q is absent.",
  "every invocation of grep and awk", "Operand and option lists are unbounded.", GEN+"InputOutputInfoGeneratorGrep.py", GEN+"InputOutputInfoGeneratorAwk.py")
p("sort writes exactly one stream", "sort writes standard output implicitly exactly when -o is absent; when -o is given its argument is a stream output; standard input is implicit exactly when there are neither operands nor --files0-from.",
  "every parsed invocation of sort", "Unbounded option lists.", GEN+"InputOutputInfoGeneratorSort.py", DATA)
p("mv, rm, mkfifo, tee, uniq operand directions", "mv without -t: all operands but the last are other-inputs and the last an other-output; with -t all are other-inputs; rm and mkfifo: all other-outputs; tee: all stream-outputs; uniq with two operands: the first is a stream input and the second a stream output.",
  "every invocation of those commands", "Operand lists are unbounded.", GEN+"InputOutputInfoGeneratorMv.py", GEN+"InputOutputInfoGeneratorTee.py", GEN+"InputOutputInfoGeneratorUniq.py")
p("Standard input is claimed only when it is read", "A command given file operands as streaming inputs, none of them '-', does not also claim standard input.",
  "every invocation of every command that takes streaming operands", "All commands and operand lists.", GEN+"InputOutputInfoGeneratorSed.py", GEN)
p("Option arguments are not mistaken for input files", "For tail -n N FILE and sed -e SCRIPT FILE only FILE is a streaming input.",
  "every count, script and file name", "All strings.", DATA, GEN+"InputOutputInfoGeneratorTail.py", GEN+"InputOutputInfoGeneratorSed.py")
p("Round robin only with order-insensitive recombination", "Every plain round-robin parallelizer ever offered recombines by concatenation or by an adjacent-lines aggregator, never by a custom aggregator.",
  "every invocation of every command, and any number of calls to the inference function", "Invariant over all annotations and call histories.", PZ+"Parallelizer.py:Parallelizer", A+"annotation_generation/datatypes/ParallelizabilityInfo.py")
p("Round robin never without consecutive chunks", "Whenever a round-robin parallelizer is offered, a consecutive-chunks parallelizer with the same mapper and aggregator is offered too.",
  "every invocation of every command", "Invariant over all annotations.", GEN)
p("Only implemented parallelizers are usable", "An offered parallelizer yields an actual mapper and aggregator only if both parts are implemented; grep never offers one with an unimplemented part.",
  "every invocation", "Ranges over all invocations.", PZ+"Parallelizer.py:are_all_parts_implemented", GEN+"ParallelizabilityInfoGeneratorGrep.py")
p("grep parallelizability decision", "grep offers consecutive chunks and round robin with the unchanged command and concatenation exactly when none of -q, -L, -l, -c, -n, -b is given (or a context or count limit option masks them), and nothing otherwise.",
  "every invocation of grep", "All flag and option lists.", GEN+"ParallelizabilityInfoGeneratorGrep.py")
p("grep with context or limit options is not split", "grep with -A, -B, -C or -m is never offered a parallelizer that splits within the input (documented: requires context; for -m only individual files).",
  "every invocation of grep with such an option", "All option lists.", GEN+"ParallelizabilityInfoGeneratorGrep.py", "docs/adding-annotations.md")
p("sort parallelizability decision", "sort is always commutative; it offers exactly one parallelizer (consecutive chunks, unchanged command as mapper, two-way merge) unless one of -c -C -u -z -R -s -m --files0-from --random-source is present, and then none.",
  "every invocation of sort and custom_sort", "All flag and option lists.", GEN+"ParallelizabilityInfoGeneratorSort.py", GEN+"ParallelizabilityInfoGeneratorCustomSort.py")
p("sort merge uses the same order", "The merge command built for sort keeps exactly the ordering flags and options of the original, in order and with their arguments, plus -m, and nothing else.",
  "every sort invocation that is parallelized", "All flag and option lists.", PZ+"TransformerFlagOptionList.py", GEN+"ParallelizabilityInfoGeneratorSort.py", PZ+"AggregatorSpec.py:AggregatorSpecFuncTransformer")
p("tr deleting or squeezing newlines is not plainly concatenated", "tr -d or tr -s whose last set names the newline escape is never offered a parallelizer that recombines by plain concatenation.",
  "every parsed invocation of tr", "Sets are arbitrary strings.", GEN+"ParallelizabilityInfoGeneratorTr.py", A+"datatypes/BasicDatatypes.py:contains_new_line")
p("uniq and sed parallelizability decisions", "uniq offers nothing with -d, -D or --all-repeated and otherwise only adjacent-lines aggregators; sed offers chunks and round robin exactly when the first operand starts with '-' or 's' or contains neither d nor q, and gives no information without an operand.",
  "every invocation of uniq and sed", "All flag lists and scripts.", GEN+"ParallelizabilityInfoGeneratorUniq.py", GEN+"ParallelizabilityInfoGeneratorSed.py")
p("Synonyms get the same annotations", "Two command lines that differ only in declared flag or option synonyms get the same input-output and parallelizability information.",
  "all shipped commands, all synonyms, all contexts", "Contexts are unbounded.", PARSE, AG, DATA)
p("Inferred parallelizers", "The list returned by get_inferred_parallelizer_list is the stored list plus, for commutative commands, one round-robin-with-unwrap copy of each consecutive-chunks parallelizer; for non-commutative commands it is the stored list.",
  "every parallelizability information object", "Lists are unbounded.", A+"annotation_generation/datatypes/ParallelizabilityInfo.py:get_inferred_parallelizer_list")
p("Asking twice gives the same answer", "Calling get_inferred_parallelizer_list or unpack_info any number of times gives the same list each time.",
  "every information object and every number of calls", "Histories of calls.", A+"annotation_generation/datatypes/ParallelizabilityInfo.py:get_inferred_parallelizer_list")
p("Mapper substitutes the streams and nothing else", "For an invocation with one streaming input and one streaming output (among operands and implicit streams), the same-as-sequential mapper is the original with that input and that output replaced by the given variables, all other parts equal, and the original unchanged.",
  "every invocation with variables and every pair of fresh variables", "All invocations.", PZ+"MapperSpec.py:get_mapper", VARS+":substitute_inputs_and_outputs_in_cmd_invocation")
p("Access map stays consistent", "After substitution the access map describes exactly the variables that occur in the invocation, and each occurrence has the access kind of the occurrence it replaced.",
  "every invocation with variables, all sequences of substitutions with fresh variables", "Histories of substitutions.", VARS+":replace_var_consistently", VARS+":substitute_inputs_and_outputs_in_cmd_invocation")
p("Wrong number of streams is rejected", "Substituting inputs fails if the number of supplied variables differs from the number of streaming inputs, and likewise for outputs.",
  "every invocation and every list of variables", "Unbounded lists.", VARS+":substitute_inputs_in_cmd_invocation", VARS+":substitute_outputs_in_cmd_invocation")
p("Reading back substituted streams", "generate_inputs after substituting fresh distinct inputs returns exactly those inputs in order; the same for outputs when all outputs are streams.",
  "every invocation and every list of fresh distinct variables", "Unbounded lists.", VARS+":generate_inputs", VARS+":generate_outputs")
p("Reading inputs and outputs is pure and complete", "generate_inputs, generate_outputs and has_other_outputs do not change the invocation, and they report all variables of that access kind occurring in the invocation.",
  "every invocation", "All invocations.", VARS+":generate_inputs", VARS+":generate_outputs", VARS+":has_other_outputs")
p("Renaming a variable", "replace_var renames exactly the occurrences of the given variable and its access entry, and is a no-op when the variable does not occur.",
  "every invocation and pair of variables", "All invocations.", VARS+":replace_var")
p("Removing streams", "remove_streaming_inputs leaves no streaming input among operands and implicit streams, keeps everything else in order, and drops exactly the removed variables from the access map; the same for outputs.",
  "every invocation", "Unbounded operand lists.", VARS+":remove_streaming_inputs", VARS+":remove_streaming_outputs")
p("Concatenation aggregator", "The concatenation aggregator is cat of the given inputs in order into the given output, with an access map consisting of exactly these, for any number of inputs.",
  "all input lists and outputs", "Unbounded lists.", PZ+"AggregatorSpec.py:AggregatorSpecNonFunc", VARS+":make_cat_command_invocation_with_io_vars")
p("Transforming aggregator", "A two-way aggregator derived from the original command takes exactly two inputs and is the original command name with the transformed flags, the two inputs as operands and the given output; its variables all have the right access kind.",
  "every original invocation, inputs and output", "All invocations.", PZ+"AggregatorSpec.py:AggregatorSpecFuncTransformer")
p("Auxiliary pipes are wired in the documented order", "A mapper with auxiliary outputs has operands input, output, aux outputs in order; a two-way aggregator with auxiliary pipes has operands first input, its aux inputs, second input, its aux inputs, output, aux outputs; numbers that do not match are rejected.",
  "every invocation and all lists of auxiliary variables", "Unbounded lists.", PZ+"MapperSpec.py:get_mapper", PZ+"AggregatorSpec.py:AggregatorSpecFuncStringRepresentation", PZ+"Parallelizer.py:get_actual_mapper")
p("Flag transformers obey their documentation", "Same-as-sequential is the identity; remove and filter keep a sublist and are complementary; add keeps the original as prefix and adds only new flags; custom and empty ignore the original; a chain is composition in order.",
  "all transformers and all flag lists", "Unbounded lists and chains.", PZ+"TransformerFlagOptionList.py")
p("Deduplication", "list_deduplication keeps exactly the distinct elements in order of first occurrence.", "all lists", "Unbounded lists.", A+"util.py:list_deduplication")
p("Formatting shell words", "format_arg_chars is defined exactly on words built from the five known kinds, is compositional under concatenation, and different words give different texts.",
  "all argument-character trees", "Trees of unbounded depth.", A+"datatypes/BasicDatatypes.py:format_arg_chars")
p("Splitting by chunks is sound for line-wise commands", "For a command whose output on a concatenation is the concatenation of outputs, running the chunk and concatenation parallelizer gives the sequential output for every split into consecutive chunks; and in particular for grep-like filters without a limit.",
  "all line-wise commands, all inputs, all splits", "All inputs and all split points.", GEN+"ParallelizabilityInfoGeneratorGrep.py", PZ+"Splitter.py", PZ+"AggregatorKind.py")
p("The offered grep plan preserves output", "For every grep invocation, executing an offered parallelizer gives the output of the sequential command.",
  "all grep invocations, all inputs, all splits", "All inputs and split points.", GEN+"ParallelizabilityInfoGeneratorGrep.py")
p("The offered sort plan preserves output", "For a sort by a total order, merging sorted chunks in a binary aggregation tree of any shape gives the sorted whole, for consecutive chunks and, because sort is commutative, for any distribution of the lines.",
  "all inputs, all distributions over chunks, all aggregation trees", "All inputs, splits and tree shapes.", GEN+"ParallelizabilityInfoGeneratorSort.py", A+"annotation_generation/datatypes/ParallelizabilityInfo.py")
p("The offered uniq plan preserves output", "Applying uniq to the last line of one part and the first line of the next and splicing gives uniq of the whole, for any number of consecutive parts.",
  "all inputs and splits", "All inputs and splits.", GEN+"ParallelizabilityInfoGeneratorUniq.py", PZ+"AggregatorKind.py")
p("Saving never overwrites", "The command line tool, asked to save to a path, does not overwrite an existing file (help text).",
  "all file-system states and paths", "All file-system states.", A+"annotation_cli.py")
p("Equality of invocations", "Two invocations compare equal exactly when they are of the same class and have equal contents; equality is an equivalence relation.",
  "all invocations", "All pairs and triples.", A+"util_standard.py:standard_eq", A+"datatypes/CommandInvocationInitial.py")
p("The command line report is total and faithful", "The command line tool reports on every command that parses, passes parse errors on, and the report contains the parse, the typed command with nothing lost, and the parallelizability information, empty if there is none.",
  "all command strings", "All command strings.", A+"annotation_cli.py", A+"annotation_generation/AnnotationGeneration.py")
p("Renaming is reversible", "Renaming a variable to one that is new to the invocation and then back restores the invocation: every part and every access entry.",
  "every invocation, every variable, every new variable", "All invocations.", VARS+":replace_var")
p("Substituting twice is substituting once", "Substituting fresh streams and then other fresh streams gives exactly what substituting the second streams at once gives; the intermediate streams leave no trace.",
  "every invocation and all lists of fresh streams", "Unbounded lists, histories of length two (hence any length).", VARS+":substitute_inputs_and_outputs_in_cmd_invocation")
p("Removing streams is final and order does not matter", "After removing the streaming inputs, reading the inputs gives none and removing again changes nothing; the same for outputs, where only other outputs are still reported; removing inputs and outputs commute.",
  "every invocation", "All invocations.", VARS+":remove_streaming_inputs", VARS+":remove_streaming_outputs", VARS+":generate_inputs", VARS+":generate_outputs")
p("Complete table of readings", "For every annotated command, how each operand is read (string, or file with which access) and whether standard input and output are used implicitly is determined by one table over command name, options and number of operands; invocations outside the table get no information.",
  "every invocation", "All operand lists and option combinations.", GEN+"InputOutputInfoGenerator_Interface.py", A+"annotation_generation/AnnotationGeneration.py:get_input_output_info_from_cmd_invocation")
p("Complete table of plans", "For every annotated command, the stored parallelizers (splitter, mapper, aggregator, auxiliary pipes) and the commutativity are determined by one table over command name, options and first or last operand; invocations outside the table get no information.",
  "every invocation", "All operand lists and option combinations.", GEN+"ParallelizabilityInfoGenerator_Interface.py", A+"annotation_generation/AnnotationGeneration.py:get_parallelizability_info_from_cmd_invocation")
p("The offered cut plan preserves output", "For every cut invocation, executing an offered parallelizer gives the output of the sequential command.",
  "all cut invocations, all inputs, all splits", "All inputs and split points.", GEN+"ParallelizabilityInfoGeneratorCut.py")
p("The offered tr plan preserves output", "For every tr invocation that is offered concatenation, executing it gives the output of the sequential command on every text split at ends of lines.",
  "all tr invocations, all texts, all splits at ends of lines", "All texts and split points.", GEN+"ParallelizabilityInfoGeneratorTr.py")
p("The offered sed plan preserves output", "For every sed invocation, executing an offered parallelizer gives the output of the sequential command.",
  "all sed invocations, all inputs, all splits", "All inputs and split points.", GEN+"ParallelizabilityInfoGeneratorSed.py")
p("The offered xargs plan preserves output", "For every xargs invocation, executing an offered parallelizer gives the output of the sequential command.",
  "all xargs invocations, all inputs, all splits", "All inputs and split points.", GEN+"ParallelizabilityInfoGeneratorXargs.py")
p("Plans with auxiliary pipes compute summaries", "If the mapper computes a summary of its part and the two-way aggregator computes the summary of a concatenation from two summaries, executing the plan with auxiliary pipes, with any tree of aggregators, gives the summary of the whole input; in particular bigrams_aux is served.",
  "all inputs, splits, tree shapes and variables", "All inputs, splits and tree shapes.", GEN+"ParallelizabilityInfoGeneratorBigramsAux.py", PZ+"MapperSpec.py:get_mapper", PZ+"AggregatorSpec.py:AggregatorSpecFuncStringRepresentation")
p("Null-terminated records are not broken", "For grep, cut and sed with -z and xargs with --null, executing an offered parallelizer, which splits at newlines, gives the output of the sequential command.",
  "all grep, cut and sed invocations with -z and all xargs invocations with --null, all texts, all splits at ends of lines", "All texts and split points.", GEN+"ParallelizabilityInfoGeneratorGrep.py", GEN+"ParallelizabilityInfoGeneratorCut.py", GEN+"ParallelizabilityInfoGeneratorSed.py", GEN+"ParallelizabilityInfoGeneratorXargs.py")
p("The data-file generator writes each name once and invents none", "For every manual page, the generated data file contains no name twice, even up to dashes, and every name in it is a well-formed name that stands on a line of the page that starts with seven blanks and a dash; lines of any other form have no effect.",
  "every list of lines", "All pages of any length.", A+"parser/command_flag_option_info/args-to-json.py", A+"parser/command_flag_option_info/manpage-to-json.sh")
p("Spellings on one line of a manual page are synonyms", "For every manual page and every line on it that lists well-formed, new spellings, the parser with the generated data file reads all of them as one flag or as one option.",
  "every page, every line, every continuation of the command", "All pages and lines of any length.", A+"parser/command_flag_option_info/args-to-json.py", A+"parser/parser.py:parse")
p("Only the named object changes", "Whatever calls were made before and whichever of them raised, a method call on an invocation changes only that invocation and, for substitution, the two lists of new variables; inspecting, constructing, and asking for mappers and aggregators change nothing the caller has. So two invocations never influence each other, and an invocation does not depend on the lists and dictionary it was made from.",
  "all finite histories of calls by a client that catches exceptions, and every object the client has", "All histories; sharing of mutable objects shows only in particular sequences of calls.", VARS, PZ+"MapperSpec.py:get_mapper", PZ+"AggregatorSpec.py:get_aggregator", PZ+"Mapper.py", PZ+"Aggregator.py")
p("Methods do the same in every history", "In every state a client can reach, the effect of a method on an invocation and its result depend only on the invocation's contents and the arguments, as described by the properties on single invocations; substitution uses up the lists it is given, and given one list for both inputs and outputs it takes everything for the inputs.",
  "all finite histories of calls, all arguments", "All histories.", VARS+":substitute_inputs_and_outputs_in_cmd_invocation", VARS+":generate_inputs", VARS+":replace_var", VARS+":remove_streaming_inputs")
p("Results are new objects", "Constructed invocations, cat commands, mappers and aggregators are objects that share no list or dictionary with anything the caller has; later changes of either side are not visible on the other.",
  "all finite histories of calls, all invocations, specifications and variables", "All histories.", VARS+":CommandInvocationWithIOVars", PZ+"MapperSpec.py:get_mapper", PZ+"AggregatorSpec.py:get_aggregator", VARS+":make_cat_command_invocation_with_io_vars")
p("A call that raises changes nothing", "If a call on an invocation raises, everything the caller has is as before the call.",
  "all finite histories of calls, every call that raises", "All histories and all points at which a call can raise.", VARS+":substitute_inputs_and_outputs_in_cmd_invocation", VARS+":replace_var", VARS+":remove_streaming_inputs")
p("Plainly written command lines are read as the manual says", "A command line whose options stand before the operands, each as a word of its own spelled as in the command's manual page, is parsed into the same options in the same order with the same arguments, up to spellings of one option, and the same operands; two spellings of one option are interchangeable.",
  "all twenty commands with a manual page and a data file, all such command lines, all spellings in the manual pages", "All option sequences, arguments and operands.", PARSE, A+"parser/command_flag_option_info/data")
p("Announced inputs are the files that are read", "For a plainly written command line of an annotated program, the files that the typed invocation announces as inputs, as operands or as option arguments, are exactly the files that the program reads according to its manual page.",
  "all commands with a manual page, all plainly written command lines, all file names", "All combinations of options and operands.", GEN, PARSE, DATA)
p("Announced outputs are the files that are written", "For a plainly written command line, the files announced as outputs are exactly the files that the program creates, changes or removes according to its manual page.",
  "all commands with a manual page, all plainly written command lines, all file names", "All combinations of options and operands.", GEN, PARSE, DATA)
p("Standard input is announced when it is read", "For a plainly written command line, standard input is announced, implicitly or by a dash, exactly if the program reads it according to its manual page.",
  "all commands with a manual page, all plainly written command lines", "All combinations of options and operands.", GEN, PARSE, DATA)
p("Standard output is announced when it is written", "For a plainly written command line, standard output is announced exactly if the program writes to it according to its manual page.",
  "all commands with a manual page, all plainly written command lines", "All combinations of options and operands.", GEN, PARSE, DATA)
p("Plans are checked when they are made", "The constructor of plans refuses exactly the plans that deal out lines round robin to an aggregator that needs more than adjacent lines, and otherwise keeps the parts it was given; the constructor of mapper specifications refuses exactly an unchanged command with a name or transformer of its own. Hence in every information object that can be made by appending, declaring commutative and asking, in any order, a plan with plain round robin has concatenation or an adjacent-lines aggregator.",
  "all parts, all finite histories of appending plans, declaring commutative and asking", "All combinations of parts and all histories.", PZ+"Parallelizer.py", PZ+"MapperSpec.py:MapperSpec", A+"annotation_generation/datatypes/ParallelizabilityInfo.py")
p("Printed invocations can be told apart", "Two parsed invocations, or two typed invocations, that differ in a flag, option, argument, operand, stream or access are printed as different texts.",
  "all pairs of invocations", "All names, of any length and with any characters.", A+"util_standard.py:standard_repr", A+"datatypes/BasicDatatypes.py:Operand", A+"datatypes/CommandInvocationInitial.py", A+"datatypes/CommandInvocationWithIO.py", A+"annotation_cli.py")
p("Queries by access find every operand once", "Each query of an invocation for operands with an access returns exactly the operands with that access, in order; for every typed invocation each operand is found by exactly one of the five queries; and the warning about other outputs is given exactly if a query for other outputs finds something. The same holds for invocations with variables and for the object that lists inputs.",
  "all invocations, all command lines the library types", "All lists of operands and options.", A+"datatypes/CommandInvocationWithIO.py:get_operands_with_config_input", VARS+":get_operands_with_stream_input", A+"annotation_generation/datatypes/Inputs.py")
p("Help and version requests are printed once", "An invocation that asks a program for its help or version text is not split into parts: whatever is offered for it, executing it prints the text once, as the program does.",
  "all invocations with such a request, all programs that print such texts, all splits", "All option combinations, inputs and splits.", GEN+"ParallelizabilityInfoGeneratorGrep.py", GEN+"ParallelizabilityInfoGeneratorSort.py", GEN+"ParallelizabilityInfoGeneratorUniq.py", GEN+"InputOutputInfoGeneratorUniq.py", DATA)
p("Annotations do not depend on the order of options", "Reordering the flags and options of an invocation changes neither the plans offered for it nor how its operands and standard streams are read, and reorders its typed options in the same way; the plans depend only on the name, the operands and the presence of some listed options of sort, grep, tr and uniq, not on repetitions, arguments or other options.",
  "all invocations, all orders", "All option sequences of any length.", GEN, AG)
p("Printed plans and reports can be told apart", "Two plans that differ are printed as different texts; if the script prints the same about parallelizability for two commands then the library says the same about them; and reports that agree after the lines that repeat the command are about commands that were parsed alike.",
  "all pairs of plans, all pairs of information objects, all pairs of commands", "All names, of any length and with any characters; all command lines.", PZ+"Parallelizer.py:__repr__", PZ+"MapperSpec.py:__repr__", PZ+"AggregatorSpec.py:__repr__", PZ+"TransformerFlagOptionList.py:__repr__", A+"annotation_generation/datatypes/ParallelizabilityInfo.py:__repr__", A+"annotation_cli.py")
p("Generators do what the names of the methods say", "A generator of input-output information written as a sequence of calls of the methods for authors types each operand as the last call that says anything about it says, and as a streaming input if none does; the standard streams are used exactly if a call says so and no later call takes it back; the only exception is an IndexError for a method that needs an operand when there is none.",
  "all sequences of calls of any length, all invocations", "All histories of calls and all numbers of operands.", A+"annotation_generation/annotation_generators/InputOutputInfoGenerator_Interface.py", IOI)
p("Plans are what the names of the methods say", "A generator of parallelizability information written as a sequence of calls of the methods for authors never raises, lists the plans named by the methods in the order of the calls and says commutative exactly if that was declared; the questions about the kind of a specification, splitter or plan node are answered yes exactly for that kind; asking for the aggregator of such a plan gives cat for concatenation, nothing for a part that is not implemented, and the aggregator otherwise.",
  "all sequences of calls of any length, all specifications, commands and streams", "All histories of calls and all texts, commands and streams.", A+"annotation_generation/annotation_generators/ParallelizabilityInfoGenerator_Interface.py", PZ+"AggregatorSpec.py", PZ+"Splitter.py", PZ+"Aggregator.py:is_aggregator_concatenate", A+"util_flag_option.py:make_arg_simple")
p("A command line run in parallel gives its output", "If a plainly written command line that reads one stream and writes standard output is parsed and typed, its files are replaced by variables, and any parallelizer offered for it is executed on any split of the stream, then the output is the output of the command line; and such executions exist.",
  "all command lines of cut, grep, sed, sort, tr, uniq and xargs, all spellings of options, all programs as in the manual pages, all streams and splits, all choices of variables", "All command lines, inputs and splits, of any length.", PARSE, DATA, GEN, AG, VARS, PZ)
p("Commands given by a path", "A command name with a slash is never annotated. If the path goes through a directory then all words are operands, whatever the last part of the path is called; with only slashes and dots before the name the words are read as those of the command of that name; a path through the name of a data file raises an error.",
  "every command name and every list of words", "Names and words of any length.", A+"parser/util_parser.py:get_json_data", PARSE, AG)
p("Property stores keep the last value", "A store of command properties gives for each name the value that was set last, through whichever store uses the same dictionary; a name that was never set has the value of the dictionary the store was made with, and none if it was made without; stores made without a dictionary share nothing.",
  "every history of making stores and dictionaries and setting properties, every name", "All histories of calls, with any sharing.", A+"annotation_generation/datatypes/CommandProperties.py", A+"util.py:return_default_if_none_else_itself")
p("Parts can be run in parallel again", "The mapper made for a command whose mapper is the command itself is a proper invocation again, with the same command, options and text operands. Hence if executing every parallelizer that is offered gives the right output for one level, then runs in which any mappers are themselves run in parallel, to any depth and in any mixture, give the right output too; all commands with parallelizers but the two for bigrams have such mappers.",
  "all invocations, all trees of splits of any depth, all choices of parallelizers and variables", "All depths, splits and choices.", PZ+"Parallelizer.py:get_actual_mapper", PZ+"MapperSpec.py:get_mapper", VARS, AG)
p("Parts can go through a pipeline", "If every command of a pipeline is right when it is run in parallel alone, and all but the last concatenate their outputs, then the input can be split once, for the last command, and each part sent through the mappers of all commands: recombining only at the end gives the output of the pipeline. A command that does not concatenate, such as sort, cannot be inside.",
  "all pipelines of any length, all inputs and splits, all choices of parallelizers and variables", "All lengths, inputs and splits.", PZ+"Parallelizer.py", AG, GEN)
p("Threads that keep apart do not notice each other", "If several threads call methods of invocations with variables, and an invocation that more than one thread uses is only asked (generate_inputs, generate_outputs, has_other_outputs, get_mapper, get_aggregator) and not changed, then in whatever order the threads take turns all of them come to an end, every call answers or raises what it does when its thread runs alone, and the invocations are left as by the thread that uses them. Asking an invocation that another thread changes is not covered, for it can undo the change.",
  "all numbers of threads, all sequences of calls, all invocations, all schedules of the single accesses to attributes and dictionaries", "All interleavings of any number of threads.", VARS, PZ+"MapperSpec.py:get_mapper", PZ+"AggregatorSpec.py:get_aggregator")
p("Saving is safe when runs are stopped or overlap", "Wherever a run of the script is stopped, and however many runs there are at the same time and in whatever order they advance, a file that is given to save to has its old contents or a complete report, no other file changes, and no file is created or removed except as announced; runs always come to an end, and a run whose file no other run uses ends as if it were alone.",
  "all arguments, files and reports, every point at which a run can be stopped, every number of runs and every order of their steps", "All crash points and all interleavings.", A+"annotation_cli.py")
p("The script's command line means one thing or does nothing",
  "The script accepts its arguments exactly if they are a sequence of settings of --command_invocation and --save_to, each "
  "with the name in full or shortened to the dashes and at least one letter, and with the value after = in the same word or, "
  "if the word can stand for a value, as the next word. It then works on the last command and the last file that are given, "
  "whatever came before. Every text can be given as a command or as a file with =; as a word of its own exactly those that do "
  "not begin with a dash, are only a dash, a negative number, or have a space and do not begin like an option. With any other "
  "arguments it prints its help or a usage message and touches no file; the help exactly if a call "
  "for help (--help, shortened or not, or -h, possibly with more letters) comes before anything that makes a message.",
  "all lists of words on the command line, all commands and file names, all file systems",
  "A test tries a few command lines; abbreviations, repeated options, values that look like options and all texts after = "
  "cannot be listed.",
  "pash_annotations/annotation_cli.py: parser, options = parser.parse_args()")

p("Adding a command leaves the others alone",
  "For every table of registered commands and every set of modules: the library can be imported exactly if no module for a "
  "registered command raises something other than that a module is missing, or lacks the expected class. Then a question about a "
  "registered command is answered by the class with the registered name, and by nothing if there is no such class; a question "
  "about any other command is answered by nothing. Registering a new command under a new name, with modules as the guide says, "
  "changes no answer for another command.",
  "all tables of commands, all sets of modules with any contents, all invocations",
  "A test looks at the shipped table and the shipped modules; the claim is about every table and every module that is added.",
  "pash_annotations/annotation_generation/AnnotationGeneration.py: DICT_CMD_NAME_TO_REPRESENTATION_IN_MODULE_NAMES",
  "pash_annotations/annotation_generation/AnnotationGeneration.py: get_input_output_info_from_cmd_invocation",
  "pash_annotations/annotation_generation/AnnotationGeneration.py: get_parallelizability_info_from_cmd_invocation",
  "pash_annotations/config/definitions.py: get_dict_cmd_name_inputoutput_info_generator_module",
  "docs/adding-annotations.md")

p("Which sed scripts are right in parallel",
  "For a sed script of commands with at most one address each: if it treats every line alone (no line numbers, no last line, nothing kept in the hold space, no further lines read, no early end), every execution of what is offered gives the output of the command, whatever the regular expressions match; nothing is offered for such a script if it contains d or q anywhere and does not begin with s or a dash. The offered scripts =, $p, $=, x, Np, n;p, 1!G;h;$p with -n, and any that end with q, are right exactly for the splits stated: at most one part not empty, or parts that begin at suitable lines.",
  "all scripts in the read part of the language, all regular expression semantics, all inputs, all splits",
  "All scripts, inputs and split points; the check in the code looks at letters of the text only.",
  "pash_annotations/annotation_generation/annotation_generators/ParallelizabilityInfoGeneratorSed.py",
  "pash_annotations/annotation_generation/annotation_generators/Generator_Interface.py: does_first_operand_contain")

p("A data file means what it lists",
  "For every directory of data files with any contents, the shipped one among them: a command whose file lists flags and options is "
  "read as these say, for every list of arguments, and its option arguments are typed as the file says; the commands for which a "
  "file is of no use are rejected whatever their arguments are, and exactly those files are that do not have the required shape. "
  "Two spellings are interchangeable exactly if the file gives them the same first spelling in the last entry that has them; "
  "arguments can be read in two pieces exactly if no option looks like a cluster of flags; a cluster means the flags it consists "
  "of exactly if each of these is its own first spelling. Changing or adding the file of one command changes nothing for "
  "the others.",
  "all directories of data files, all JSON values in them, all commands and arguments",
  "A test looks at the shipped files; the claim is about every file that a contributor writes.",
  "pash_annotations/parser/parser.py: parse", "pash_annotations/parser/util_parser.py: get_json_data",
  "pash_annotations/annotation_generation/annotation_generators/InputOutputInfoGenerator_Interface.py: get_dict_option_to_class_for_arg",
  "docs/adding-annotations.md")

p("Data files are texts",
  "The text of a data file is read as the JSON value it writes, in any layout and with any escapes, and rejected exactly if it writes none. "
  "What the library prints for a value without numbers is read back as the same value and uses only printable ASCII. Hence a data file means what its text "
  "lists; what the scripts print for a manual page can be put in place as the data file of a command, which is then read by the "
  "flags and options found on the page; it can be used for typing as it is exactly if no option argument on the page is called FILE, "
  "DIR or DIRECTORY. The texts of the shipped files are the tables that the other properties are about.",
  "all texts, all JSON values, all layouts, all manual pages, all directories of data files, all commands and arguments",
  "Texts, layouts and pages are infinitely many; a test of the parser uses the shipped files.",
  "pash_annotations/parser/util_parser.py: get_json_data", "pash_annotations/parser/command_flag_option_info/args-to-json.py: parse",
  "pash_annotations/parser/command_flag_option_info/manpage-to-json.sh", "pash_annotations/parser/command_flag_option_info/data")

p("Only files of the library describe commands",
  "Reading a command line opens no file but the data file of the command and the default file, both in the data directory of the "
  "library. The file that is opened is the one to which the path made from the name leads, through directories and symbolic links; "
  "the default file describes the command exactly if there is no such file. Names that do not leave the data directory mean the same "
  "on all machines with the same data directory, wherever the library is installed and whatever other files there are.",
  "all trees of directories, files and symbolic links, all places of installation, all limits of the operating system, all names "
  "of commands and all arguments",
  "A test runs on one machine with one installation and the names that its author thought of.",
  "pash_annotations/parser/util_parser.py: get_json_data", "pash_annotations/parser/parser.py: parse",
  "pash_annotations/annotation_generation/annotation_generators/InputOutputInfoGenerator_Interface.py: get_dict_option_to_class_for_arg")

p("The offered col plan preserves output",
  "If col reads one stream and a parallelizer that is offered for it is executed on the parts of a text, the result is the output of "
  "col on the text.",
  "all command lines of col with -b, -f, -h or -x, all implementations of col as in its manual, all texts without half-line motions and all splits "
  "of them at ends of lines, both splitters",
  "The texts and splits are infinitely many; a text where the cursor goes up into another part is easily missed.",
  "pash_annotations/annotation_generation/annotation_generators/ParallelizabilityInfoGeneratorCol.py: generate_info",
  "pash_annotations/annotation_generation/annotation_generators/InputOutputInfoGeneratorCol.py: generate_info")

p("Plans for programs of one's own",
  "Some annotated commands are no standard programs: alt_bigrams_aux, bigrams_aux, custom_sort, custom_tr, set_diff, test_one and test_two. "
  "What they compute is up to the user. Their command lines are read with the options that are given. What is offered for them can be "
  "executed, and gives the output of the command for every split exactly if the programs obey one law: the program that "
  "recombines, given the outputs for two parts, gives the output for both parts together; for round robin without marked blocks also: the output does "
  "not depend on the order of the lines.",
  "all programs under these names, all inputs and all splits that the offered splitters can make, all trees of aggregators, all command lines of these "
  "commands",
  "The programs are unknown when the library is tested.",
  "pash_annotations/annotation_generation/annotation_generators/ParallelizabilityInfoGeneratorAltBigramsAux.py: generate_info",
  "pash_annotations/annotation_generation/annotation_generators/ParallelizabilityInfoGeneratorCustomSort.py",
  "pash_annotations/annotation_generation/annotation_generators/ParallelizabilityInfoGeneratorSetDiff.py: generate_info",
  "pash_annotations/annotation_generation/annotation_generators/ParallelizabilityInfoGeneratorTestOne.py: generate_info",
  "pash_annotations/parser/command_flag_option_info/data/custom_sort.json")

p("Data files in every encoding",
  "The bytes of a data file are read as a JSON value exactly if they are a JSON text that writes the value, in UTF-8, UTF-16 or UTF-32, in either order of "
  "the bytes, with or without a mark at the beginning. Bytes never stand for two values. Bytes that hold no value raise an error and are not "
  "read as something else.",
  "all sequences of bytes, all JSON texts in all these encodings, all machines and names of commands",
  "The encoding is guessed from the first bytes; a test tries a few files, in the encoding of its author's editor.",
  "pash_annotations/parser/util_parser.py: get_json_data", "pash_annotations/parser/parser.py: parse")

p("Installing keeps the meaning of command lines",
  "Installing a source tree copies the modules of the packages and the visible data files in the data directory itself, with their contents, and nothing else; it works exactly "
  "if these and the README can be read. On every machine where the result is installed, command lines are read and generators are made as on a "
  "machine with the source tree, for every command whose name has no slash and does not begin with a dot. Other names, such as paths, "
  "get the default description after installation, whatever the source tree has for them. A data file and generators that a contributor adds are installed.",
  "all source trees, all machines and places of installation, all names of commands and command lines",
  "Tests run from the source tree; they do not install it, and not with files that do not exist yet.",
  "setup.py: setup", "MANIFEST.in", "pash_annotations/parser/util_parser.py: get_json_data")

p("Changes of a data file reach only the lines that use them",
  "If the data file of a command is replaced by another version, a command line is read exactly as before if both versions say the same about "
  "the words of the line and about the letters of its clusters; all command lines are read as before exactly if both say the same about all "
  "words. So an entry that is added or removed anywhere changes no line that does not use one of its spellings, and the order of the entries "
  "does not matter if no spelling is in two of them. The library reads the file again when annotations are asked for: the types of option "
  "arguments are then those of the new version, an option that is no longer there raises a KeyError, and nothing else does.",
  "All pairs of versions of a data file, all directories of data files, all command lines, all invocations",
  "Pairs of files and all lines are not enumerable; a clash of two spellings shows only with the right order and the right line",
  "pash_annotations/parser/parser.py:parse", "pash_annotations/parser/util_parser.py:get_json_data",
  "pash_annotations/annotation_generation/annotation_generators/InputOutputInfoGenerator_Interface.py:get_dict_option_to_class_for_arg")

p("A parallelizer that is offered can be carried out",
  "For every invocation that the library types and offers a parallelizer for whose parts are all declared to be implemented, the actual mapper "
  "can be made with one new variable for the input and one for the output, and the outputs can be recombined with new variables. If the mapper "
  "cannot be made, an error is raised; no mapper is made that loses an input or output.",
  "all command lines, all typed invocations, all offered parallelizers, all ways to put variables in the place of files",
  "Whether it works depends on the number of files on the command line, and on commands that are taken to read standard input besides their files.",
  "pash_annotations/annotation_generation/datatypes/parallelizability/Parallelizer.py: get_actual_mapper, get_actual_aggregator",
  "pash_annotations/annotation_generation/datatypes/parallelizability/MapperSpec.py: get_mapper",
  "pash_annotations/datatypes/CommandInvocationWithIOVars.py: substitute_inputs_and_outputs_in_cmd_invocation")

p("Names of inputs in the output",
  "Where a parallelizer is offered for a command that prints the name of its input with the lines, as grep does with -H, carrying it out gives "
  "what the command gives on the whole input, although the parts are found under the names of pipes or temporary files. If the output does not "
  "depend on the names, they do no harm.",
  "All invocations of grep with options that choose what is printed for a line, a pattern and a file; all splits, all names of the parts, all "
  "contents, all programs that work in this way",
  "The name of a part is chosen when the plan is carried out; a test that compares the lines without names, or with one part that keeps its "
  "name, does not notice",
  "pash_annotations/annotation_generation/annotation_generators/ParallelizabilityInfoGeneratorGrep.py:ParallelizabilityInfoGeneratorGrep",
  "pash_annotations/annotation_generation/datatypes/parallelizability/MapperSpec.py:MapperSpec.get_mapper",
  "pash_annotations/annotation_generation/datatypes/parallelizability/AggregatorSpec.py:AggregatorSpec.get_aggregator")

p("Parallelizers and the older annotations",
  "The older annotations that the repository still contains class every invocation of a command as stateless, parallelizable pure, pure or "
  "side-effectful. What the library offers for an invocation fits its class: plans that concatenate for stateless commands, some plan for "
  "parallelizable pure ones, with the aggregator and mapper named in the file, and nothing for the others.",
  "All command lines of commands that the older annotations describe, all parallelizers that are offered for them",
  "The two descriptions are written in different languages and differ only for certain combinations of options and operands",
  "pash_annotations/old_annotations/README.md", "pash_annotations/annotation_generation/AnnotationGeneration.py:get_parallelizability_info_from_cmd_invocation",
  "pash_annotations/old_annotations/grep.json", "pash_annotations/old_annotations/tr.json", "pash_annotations/old_annotations/sort.json")

p("Inputs whose last line is not complete",
  "A parallelizer that is right for lists of lines is right for files too, also when the last line has no newline at its end: if the file is "
  "cut or dealt at the ends of lines, carrying out a plan that concatenates or merges gives, byte for byte, what the command gives on the "
  "whole file. This holds for commands that complete the last line (grep, cut, sort) and for those that leave it as it is (sed).",
  "All texts, all ways to cut or deal them at the ends of lines, all parallelizers that concatenate or merge, all programs that work in one "
  "of these ways",
  "Where the cuts fall and whether the last part is empty depends on the file and the number of workers; cuts inside of lines go wrong only "
  "for some programs",
  "pash_annotations/annotation_generation/datatypes/parallelizability/Splitter.py:Splitter",
  "pash_annotations/annotation_generation/datatypes/parallelizability/AggregatorSpec.py:AggregatorSpec.get_aggregator",
  "pash_annotations/annotation_generation/datatypes/parallelizability/MapperSpec.py:MapperSpec.get_mapper")

p("Exit statuses of parallel runs",
  "Where a parallelizer is offered, carrying it out gives not only the output but also the exit status of the command on the whole input, so "
  "that a script that tests the status, as with grep and a pipeline after it, takes the same branch.",
  "All command lines with an offered parallelizer that concatenates or sorts, all inputs, all splits, all programs with statuses",
  "Depends on which lines match in which part; most tests compare outputs only",
  "pash_annotations/annotation_generation/annotation_generators/ParallelizabilityInfoGeneratorGrep.py:ParallelizabilityInfoGeneratorGrep",
  "pash_annotations/annotation_generation/datatypes/parallelizability/AggregatorSpec.py:AggregatorSpec.get_aggregator",
  "pash_annotations/annotation_generation/datatypes/parallelizability/Parallelizer.py:Parallelizer.get_actual_aggregator")

p("Printing shows what equality compares",
  "The printed text of an invocation, of a mapper or aggregator specification or of a plan names the class and lists the attributes that == "
  "compares, each under its name and with its own text; two objects that compare equal print the same text.",
  "All invocations, specifications and plans, all pairs of them, and for invocations with variables all histories of renamings",
  "Depends on the order in which dictionaries were filled; logs and test reports are compared as texts",
  "pash_annotations/util_standard.py:standard_repr", "pash_annotations/util_standard.py:standard_eq",
  "pash_annotations/datatypes/CommandInvocationWithIOVars.py:CommandInvocationWithIOVars.replace_var",
  "pash_annotations/annotation_generation/datatypes/parallelizability/Parallelizer.py:Parallelizer.__repr__")

p("Streams and the older annotations",
  "For every command that both describe, the older annotation and the library name the same inputs and outputs for an invocation: the files "
  "and standard streams that are read as streams, those that are read as configuration and those that are written, in the same order. "
  "(Invocations that the older annotation calls side-effectful, and arguments of options, are left out.)",
  "All invocations of commands that the older annotations and the library describe",
  "The older annotations look at the number of operands and at single options; where they go wrong depends on combinations of operands, "
  "dashes and options",
  "pash_annotations/old_annotations/README.md", "pash_annotations/annotation_generation/AnnotationGeneration.py:get_input_output_info_from_cmd_invocation",
  "pash_annotations/old_annotations/grep.json", "pash_annotations/old_annotations/sort.json", "pash_annotations/old_annotations/cat.json")

p("Several inputs are read through cat",
  "No mapper can be made for a command with several inputs. If a caller puts the `cat` that the library makes before the command, removes the "
  "inputs from the invocation with the library's method and lets the command read the output of `cat`, then the invocation is the same command "
  "with the same flags, options and text operands, reads only that output, and writes where it wrote; `cat` reads the files in the order in "
  "which they are given; and executing an offered plan on the output of `cat` gives the output of the command on its files.",
  "All invocations with any number of inputs, offered plans, programs, contents and names of files, and splits",
  "Whether a command treats several files as one depends on its options and on the contents: names before lines, incomplete last lines",
  "pash_annotations/datatypes/CommandInvocationWithIOVars.py:CommandInvocationWithIOVars.make_cat_command_invocation_with_io_vars",
  "pash_annotations/datatypes/CommandInvocationWithIOVars.py:CommandInvocationWithIOVars.remove_streaming_inputs",
  "pash_annotations/annotation_generation/annotation_generators/ParallelizabilityInfoGeneratorGrep.py",
  "pash_annotations/annotation_generation/annotation_generators/ParallelizabilityInfoGeneratorSort.py")

p("The commands for a pipeline can run at the same time in any order",
  "Take a pipeline of commands whose plans concatenate, or sort, and let a caller make the mappers of all stages for each part and the "
  "aggregators of the last stage with the library, with a new variable for each output. Then every variable made has exactly one writer, and "
  "every variable other than the result exactly one reader. If all commands run at the same time, each writing whenever it likes what its inputs so "
  "far determine, then whatever the order, the result is always a beginning of the same output, something can be done until all "
  "commands have stopped, there are finitely many steps, and in the end the result is the output of the pipeline run in sequence if the "
  "stages are right when run in parallel alone.",
  "All pipelines of such stages, numbers and contents of parts, new variables, trees of aggregators, programs and schedules",
  "Schedules of concurrent commands cannot be enumerated",
  "pash_annotations/annotation_generation/datatypes/parallelizability/Parallelizer.py:Parallelizer.get_actual_mapper",
  "pash_annotations/annotation_generation/datatypes/parallelizability/Parallelizer.py:Parallelizer.get_actual_aggregator",
  "pash_annotations/annotation_generation/datatypes/parallelizability/MapperSpec.py:MapperSpec.get_mapper",
  "pash_annotations/annotation_generation/datatypes/parallelizability/AggregatorSpec.py:AggregatorSpec.get_aggregator",
  "pash_annotations/datatypes/CommandInvocationWithIOVars.py:CommandInvocationWithIOVars.substitute_inputs_and_outputs_in_cmd_invocation")

p("Pipes of any size do not block the commands for a pipeline",
  "Connect the commands made for a pipeline as before by pipes that hold only so much, at least one element each, and let the parts be files. "
  "Each command is a process that reads one element, waits for one, writes one when there is room, or stops. Whatever the processes (as long as "
  "each alone writes what its program writes), the sizes of the pipes and the order, what has been written to the result is a beginning of the "
  "output, there are finitely many steps, and when no process can go on, the writer of the result has stopped and the whole output has been "
  "written: no deadlock.",
  "All pipelines of stages that concatenate or sort, parts, processes, sizes of pipes of at least one, and schedules",
  "Deadlocks depend on the sizes of pipes, on the amount of data and on the schedule",
  "pash_annotations/annotation_generation/datatypes/parallelizability/Parallelizer.py:Parallelizer.get_actual_mapper",
  "pash_annotations/annotation_generation/datatypes/parallelizability/Parallelizer.py:Parallelizer.get_actual_aggregator",
  "pash_annotations/datatypes/CommandInvocationWithIOVars.py:CommandInvocationWithIOVars.make_cat_command_invocation_with_io_vars",
  "pash_annotations/datatypes/CommandInvocationWithIOVars.py:CommandInvocationWithIOVars.substitute_inputs_and_outputs_in_cmd_invocation")

p("The commands for a plan with auxiliary pipes can run at the same time in any order",
  "Take a plan with auxiliary pipes whose aggregator is given as text, and let a caller make the mapper for each part and a tree of two-way "
  "aggregators with the library, with a different variable for each input and output. Then every variable made is written by exactly one command, "
  "every variable other than the results is read by exactly one, and no command uses standard input or output. If all commands run at the same "
  "time, each writing to each of its outputs whenever it likes what its inputs so far determine, then whatever the order, the results are always "
  "beginnings of what one execution of the plan gives, something can be done until everything has been written, there are finitely many steps, and "
  "in the end the results are what that execution gives: for bigrams_aux and parts that are not empty, the bigrams of the whole input, its first and its last line.",
  "All plans with auxiliary pipes, numbers and contents of parts, variables, trees of aggregators, programs and schedules",
  "Races depend on the schedule, and the trees, the number of auxiliary pipes and the contents are unbounded",
  "pash_annotations/annotation_generation/datatypes/parallelizability/Parallelizer.py:Parallelizer.get_actual_mapper",
  "pash_annotations/annotation_generation/datatypes/parallelizability/Parallelizer.py:Parallelizer.get_actual_2_ary_aggregator_with_aux",
  "pash_annotations/annotation_generation/datatypes/parallelizability/AggregatorSpec.py:AggregatorSpecFuncStringRepresentation.get_actual_2_ary_aggregator_with_aux",
  "pash_annotations/annotation_generation/datatypes/parallelizability/MapperSpec.py:MapperSpec.get_mapper")

p("If commands that carry out a plan are killed, lines can be missing from the result but none is wrong",
  "Run the commands made for a pipeline whose plans concatenate, or sort, at the same time, and kill any of them at any moment, or let inputs break "
  "off; readers then see an end of input. At every moment each variable holds a beginning of what its writer gives for what its inputs hold, and "
  "when all have stopped exactly such contents are possible. If the stages are right when run in parallel alone, the result is at every moment a "
  "sublist of the output of the pipeline run in sequence, in order, and ordered for a sort. For plans that concatenate the possible results are exactly "
  "the beginnings of beginnings of the outputs of the parts, one after the other. So killing one command, other than the one that writes the "
  "result, can remove the output of a part from the middle, although all commands have stopped.",
  "All pipelines of such stages, parts, programs, schedules, sets of killed commands and moments at which they are killed",
  "Crash points and schedules cannot be enumerated",
  "pash_annotations/annotation_generation/datatypes/parallelizability/Parallelizer.py:Parallelizer.get_actual_mapper",
  "pash_annotations/annotation_generation/datatypes/parallelizability/Parallelizer.py:Parallelizer.get_actual_aggregator",
  "pash_annotations/annotation_generation/datatypes/parallelizability/MapperSpec.py:MapperSpec.get_mapper",
  "pash_annotations/annotation_generation/datatypes/parallelizability/AggregatorSpec.py:AggregatorSpec.get_aggregator")

p("If commands that carry out a plan with auxiliary pipes are killed, lines can be missing from the result but none is wrong",
  "Run the commands made for a plan with auxiliary pipes at the same time, and kill any of them at any moment, or let inputs break off; the readers "
  "of all outputs of a killed command then see an end of input. At every moment each variable holds a beginning of what its writer gives for what its "
  "inputs hold, and when all have stopped exactly such contents are possible. For bigrams_aux the result is then at every moment a sublist of the "
  "bigrams of the whole input, so that lines can be missing but none is wrong.",
  "All plans with auxiliary pipes, parts, trees of aggregators, programs, schedules, sets of killed commands and moments at which they are killed",
  "Crash points and schedules cannot be enumerated",
  "pash_annotations/annotation_generation/datatypes/parallelizability/Parallelizer.py:Parallelizer.get_actual_mapper",
  "pash_annotations/annotation_generation/datatypes/parallelizability/Parallelizer.py:Parallelizer.get_actual_2_ary_aggregator_with_aux",
  "pash_annotations/annotation_generation/datatypes/parallelizability/MapperSpec.py:MapperSpec.get_mapper",
  "pash_annotations/annotation_generation/datatypes/parallelizability/AggregatorSpec.py:AggregatorSpecFuncStringRepresentation.get_actual_2_ary_aggregator_with_aux",
  "pash_annotations/annotation_generation/annotation_generators/ParallelizabilityInfoGeneratorBigramsAux.py:ParallelizabilityInfoGeneratorBigramsAux")

p("What the older annotations call stateless treats each line by itself",
  "If a file of the older annotations calls an invocation stateless, which their manual explains as working on individual lines without state, then, "
  "for programs as in their manuals, the output for a concatenation of two inputs is the concatenation of their outputs (on texts: if the first "
  "one ends with a newline).",
  "All invocations of grep, cut, tr, xargs, col and cat with the flags and options their specifications are about, all programs as in the manuals, all inputs",
  "The class is used for all inputs; the programs are not part of the library",
  "pash_annotations/old_annotations/grep.json", "pash_annotations/old_annotations/cut.json",
  "pash_annotations/old_annotations/tr.json", "pash_annotations/old_annotations/xargs.json",
  "pash_annotations/old_annotations/col.json", "pash_annotations/old_annotations/cat.json")

p("A data file that is only partly written is not misread",
  "If the writing of the data files was interrupted, each file in any place, then each command is described as by the complete files or "
  "there is an error: no command line is read in another way, and no other inputs and outputs are derived. The beginnings of a data file that "
  "are accepted are those that lack only blanks at the end.",
  "All machines, all places where the writing of each file stops, all data files that hold an object, in all encodings and layouts, all commands and arguments",
  "There are as many places to stop as there are bytes, and for each file and each encoding others",
  "pash_annotations/parser/util_parser.py:get_json_data",
  "pash_annotations/parser/parser.py:parse",
  "pash_annotations/annotation_generation/annotation_generators/InputOutputInfoGenerator_Interface.py:InputOutputInfoGeneratorInterface")

p("A line that is read while data files are exchanged is read as before or as after",
  "While data files are exchanged one after the other, each command is described by the files from before or by those from after the exchange, "
  "whenever its file and the default file are opened; so each line is read, and inputs and outputs are derived, as before or as after it.",
  "All machines before and after, all moments at which the two files are opened, all orders of the changes, all commands and arguments",
  "It depends on what happens between two openings of files",
  "pash_annotations/parser/util_parser.py:get_json_data",
  "pash_annotations/parser/parser.py:parse",
  "pash_annotations/annotation_generation/annotation_generators/InputOutputInfoGenerator_Interface.py:InputOutputInfoGeneratorInterface")

p("The reductions listed in the older notes combine the outputs of parts",
  "For each command in the table of reductions of the older annotations, the reduction makes from the outputs of the command for two parts of an "
  "input its output for the whole input, wherever the input is cut (between characters for `tr` and `wc`, between lines for the others).",
  "All inputs and all places at which they are cut; all translations, squeezed sets, keys, orders and ways to number lines",
  "Inputs have any length, and the reductions fail only for certain cuts",
  "pash_annotations/old_annotations/p_stats/mr.md")

p("Pipes of any size do not block the commands for a plan with auxiliary pipes",
  "Run the commands made for a plan with auxiliary pipes at the same time, with pipes that hold only so much: a command that writes to a full pipe "
  "waits. Whatever the sizes of the pipes are, if each command alone does what its program does, then they do not come to a state in which "
  "all wait for each other: at the end every command has stopped and the outputs are complete. At any time what has been written is a beginning "
  "of what it should be.",
  "All plans with auxiliary pipes, parts, trees of aggregators, programs, orders in which commands read and write, sizes of pipes and schedules",
  "It depends on the sizes of pipes, on the schedule and on the order in which commands read their inputs; inputs longer than a pipe are needed",
  "pash_annotations/annotation_generation/datatypes/parallelizability/Parallelizer.py:Parallelizer.get_actual_mapper",
  "pash_annotations/annotation_generation/datatypes/parallelizability/Parallelizer.py:Parallelizer.get_actual_2_ary_aggregator_with_aux")

here = os.path.dirname(os.path.dirname(os.path.abspath(__file__)))
with open(os.path.join(here, "properties.jsonl"), "w") as f:
    for x in P: f.write(json.dumps(x)+"\n")
print(len(P))
