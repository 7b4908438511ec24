# Formal model of binpash/annotations: design

## 1. What is modelled

Lean 4 (no project axioms), shallow embedding: every Python function becomes a total, computable
Lean function with the same branches in the same order. Exceptions are values
(`Except PyErr`), so that "raises", "returns None" and "returns a value" stay distinct.
Every definition cites the file and lines it models.

| Lean module (`lean/Verif/…`) | Python source |
|---|---|
| `Model/Py.lean` | exceptions, dictionary and list primitives used below |
| `Model/Shlex.lean` | `shlex.split` (posix, called at parser.py:12), `shlex.quote`, `shlex.join` of CPython 3.11 |
| `Model/Data.lean` (generated by `tools/gen_data.py`) | all 24 `parser/command_flag_option_info/data/*.json` files, literally |
| `Model/Parser.lean` | `parser/parser.py`, `parser/util_parser.py` |
| `Model/Access.lean`, `Model/Basic.lean` | `datatypes/AccessKind.py`, `datatypes/BasicDatatypes*.py`, `datatypes/CommandInvocation{Initial,WithIO}.py`, `util.py` |
| `Model/IOInfo.lean` | `annotation_generation/datatypes/InputOutputInfo.py`, `InputOutputInfoGenerator_Interface.py` |
| `Model/IOGenerators.lean` | all 28 `InputOutputInfoGenerator*.py`, `AnnotationGeneration.get_input_output_info_from_cmd_invocation` |
| `Model/IOVars.lean` | `datatypes/CommandInvocationWithIOVars.py` |
| `Model/Transformers.lean` | `parallelizability/TransformerFlagOptionList.py` |
| `Model/Parallel.lean` | `Splitter.py`, `MapperSpec.py`, `Mapper.py`, `AggregatorSpec.py`, `Aggregator.py`, `AggregatorKind.py`, `Parallelizer.py`, `ParallelizabilityInfo.py` |
| `Model/ParGenerators.lean` | all 15 `ParallelizabilityInfoGenerator*.py`, `AnnotationGeneration.get_parallelizability_info_from_cmd_invocation` |
| `Model/ArgChars.lean` | `format_arg_chars`, `format_arg_char`, `get_kv` |
| `Model/Cli.lean` | `annotation_cli.py`: the report, the save decision, the script's directory, a whole run |
| `Model/CliSteps.lean` | `annotation_cli.py` as a sequence of steps, with files that are emptied and then filled piece by piece |
| `Model/ScriptArgs.lean` | the arguments of `annotation_cli.py`: what `argparse` of Python 3.11 does for the parser declared there, and the script from its arguments to its end |
| `Model/Registry.lean` | `AnnotationGeneration.py` for any table of commands and any modules: the import loop and the two functions that ask; the functions in `config/definitions.py` |
| `Model/ManPage.lean` | `parser/command_flag_option_info/args-to-json.py` and the filter of `manpage-to-json.sh`, which make a data file from the lines of a manual page |
| `Model/DataFiles.lean` | `parser/util_parser.py`, `parser/parser.py` and the typing of option arguments in `InputOutputInfoGenerator_Interface.py` for any directory of data files with any JSON values in them: values of a wrong type raise what Python raises. `C100_shipped` and `C100_shipped_types` prove that for the shipped files this is the parser and the typing of the main model |
| `Model/JsonText.lean` | `json.loads` and `json.dumps(…, indent=4)` of Python's library (decoder.py, scanner.py, encoder.py), which the code calls in `util_parser.py:15` and `args-to-json.py:84`; what the script for manual pages prints; data directories given by texts |
| `Model/DataTexts.lean` (generated by `tools/gen_texts.py`) | the texts of the 24 files in `parser/command_flag_option_info/data`, letter by letter. `C101_shipped` proves that reading them gives the tables in `Model/Data.lean` |
| `Model/JsonBytes.lean` | `json.loads` for bytes, as `util_parser.py:15` calls it: `detect_encoding` of Python's library (json/__init__.py) and the decoders for UTF-8, UTF-16 and UTF-32 with `surrogatepass`; single surrogates are outside the model |
| `Model/Files.lean` | `get_json_data` and `parse` on a machine: `pkgutil.get_data` and `open` on a tree of directories, files and symbolic links, with the limits of Linux for names, paths and links |
| `Model/Setup.lean` | `setup.py`: which files of a source tree are copied, after the documentation of setuptools; `MANIFEST.in` matches nothing |
| `Model/Heap.lean` | `CommandInvocationWithIOVars.py`, `MapperSpec.get_mapper`, `AggregatorSpec.get_aggregator` again, on a heap of mutable objects: sharing, in-place updates, and what an exception leaves behind |
| `Model/Threads.lean` | `CommandInvocationWithIOVars.py`, `get_mapper`, `get_aggregator` once more, as sequences of single accesses to attributes and dictionaries, for threads that take turns |
| `Model/Text.lean` | `util_standard.standard_repr`, the `__repr__` methods of parsed and typed invocations |
| `Model/PlanText.lean` | the `__repr__` methods of plans and information objects, the text printed by `annotation_cli.py` |
| `Model/Stores.lean` | `CommandProperties.py` on a heap, `CommandInvocationPrefix.py` |
| `Model/Setters.lean` | the methods for authors of generators in `InputOutputInfoGenerator_Interface.py` as a language of calls |
| `Model/Authors.lean` | the methods of `ParallelizabilityInfoGenerator_Interface.py` as a language of calls; `util_flag_option.py`; `is_aggregator_concatenate` |
| `Model/Queries.lean` | `get_operands_with_*` of invocations with variables, `datatypes/Inputs.py` |
| `Model/PyObj.lean` | Python values, `==` of CPython on them, `util_standard.standard_eq`, and all data classes as such values |
| `Model/Show.lean` | `standard_repr` on the values of `Model/PyObj.lean` |
| `Model/Updates.lean` | `get_json_data` and its callers, if files change between the openings of two files |
| `Model/Reductions.lean` | the table of reductions in `old_annotations/p_stats/mr.md`, but for the empty line for `join -e` |
| `Model/Old.lean`, `Model/OldData.lean` (generated by `tools/gen_old.py`) | `old_annotations/*.json`: the classes, predicates, aggregators, mappers, inputs and outputs |

Specifications, independent of the model's helpers, are in `Spec/…`; property theorems are in
`Props/…` (one file per area); helper lemmas are in `Lemmas/…`. `Spec/Streams.lean` gives a meaning to
executing a parallelizer: commands are functions on streams of lines, a mapper run per part, and the three
ways of recombining (concatenation, binary tree, adjacent lines). `Spec/Programs.lean` says what is assumed of cut,
sed, xargs, tr, of programs with null-terminated records and of the two bigram functions, after their manuals.
`Spec/Manual.lean` lists the options in the manual pages, `Spec/Effects.lean` what a plain command line reads and writes,
`Spec/Constructors.lean` the plans a user can make.

## 2. What is not modelled

* The addresses in `repr` texts of options with variables (they are a parameter), Python's escapes for unprintable characters beyond ASCII, the messages of `argparse` (which words are accepted is modelled, for this script and Python 3.11), running `man` (the rest of `manpage-to-json.sh` is modelled), the test files (their assertions are checked in `Check/RepoTests.lean`) and, in `old_annotations/`, the files that are not annotations.
* Python strings containing lone surrogates (Lean's `Char` has none).
* `get_json_data` for command names that begin with `..` as a path, which leave the data directory, and for names of more
  than 250 bytes, where the limits of the file system matter. The model returns the error `outsideModel` for them,
  so every theorem that concludes success carries the hypothesis `Readable`. Paths through other directories, through
  data files and names with NUL are modelled; a file system that distinguishes upper and lower case and has no directory
  inside the data directory is assumed.
  `Model/Files.lean` lifts these limits (C102); changes of files during a call are not modelled there (those between the openings of two files are, in `Model/Updates.lean`, C123), and permissions only as far as a file may or may not be read and a directory may be read and searched or neither.
* Installation problems other than those of `Model/Setup.lean` (which files are copied) and missing or malformed data files (which `Model/DataFiles.lean` covers), what setuptools does besides copying (metadata, compiled modules), memory exhaustion, `sys.setrecursionlimit`.
* Identity after `deepcopy`: a copied `OptionWithIOVar` is a new object in Python, the model keeps its `oid`.
* Object identity otherwise, except where `OptionWithIOVar` (no `__eq__`) makes it observable (`Model/Transformers.lean`)
  and except for lists, dictionaries and invocations in `Model/Heap.lean` and `Model/Stores.lean`.
* The real behaviour of grep, sort, uniq, …: soundness theorems take the command's meaning on
  lists of lines as a parameter or as a small reference semantics (`Spec/Streams.lean`).

## 3. Plan per property

Shapes: (R) round trip/algebraic law, (I) invariant by induction, (F) refinement to an abstract spec,
(D) decision logic proved outright, (N) the property is false of the code: the negation is proved with a
witness and the part that holds is proved as `_partial`.

| Id | Plan |
|---|---|
| C01 | R: `split (join ws) = ws` by induction over the characters of the quoted word with the lexer state generalised; lifted to `parse`. |
| C02 | F: lexer errors characterised by an independent quote automaton; `parse` otherwise total. |
| C03 | I: induction over the parser loop; conservation relation between words and result. |
| C04 | F: inductive grammar relation; soundness, completeness and determinism for every database. |
| C05 | I: induction over the loop; the exception (trailing option name) is part of the statement. |
| C06, C07 | D+I: table fact checked by the kernel on the complete shipped table, lifted to all contexts by the composition lemma. |
| C08 | N: false (`tr -Cd`), because cluster letters are not normalised; proved when each letter is its own primary spelling. |
| C09 | I: induction over the prefix; needs the table fact that no option name is a flag cluster. |
| C10 | N: false for `uniq` (bare strings in uniq.json make `-`, `f`, `s`, `w` flags); proved for all other commands. |
| C11 | D: table fact that no declared spelling contains `=` or equals `--`. README claim refuted by witness. |
| C12 | N: false for clusters with non-primary letters (`grep -yv`); proved when all flags of the result are primary, and in general after one normalisation. |
| C13 | I: every option name produced by the loop is a primary name of the database. |
| C14, C17 | I: lengths of typer lists equal list lengths (no `zip` truncation). |
| C15, C16 | D. |
| C18, C20 | D over the 30-entry command dictionary and arbitrary argument lists. |
| C19 | D: `Except` is caught; the model shows when the result is `none`. |
| C21–C25 | D per generator, arbitrary operand/option lists. |
| C26 | N: false for sed (and others that always set stdin); proved for the rest. |
| C27 | N: false for tail and sed (database declares them as flags). |
| C28, C29, C30 | I over all generators. |
| C31, C33, C36 | D. |
| C32 | N: false; the code offers both splitting parallelizers. |
| C34 | R/D: transformer chain computed for arbitrary lists. |
| C35 | N: false when the escape is at index 0 (`find(...) > 0`); proved otherwise. |
| C37 | follows from C06, C07. |
| C38, C39 | I; C39 N for commutative information. |
| C40–C46 | I over the traversal, with the access map as state. Options holding variables are skipped by the code (N parts of C40, C44). C42_exact: refinement of the traversal to `Walk` (Spec/Walk.lean), without hypotheses. C46_outcome (Props/RemoveExact.lean): exactly when removal returns. |
| C47–C49 | D/I. Both directions for transforming aggregators: C48_exact, C48_made (Props/RemoveExact). |
| C50, C51 | R. |
| C52 | I over the tree; injectivity N. |
| C53 | R: execution of the plan for any number of chunks, and the converse: only line-wise commands are served. |
| C54 | N for `-A -B -C -m` (offered, but the context or the limit is per part); proved without them against a reference grep on lines; `-m` exactly, by comparing the first lines of all with the first lines of each part; context exactly, by comparing what is printed line by line (first the lines other than separators, then the separators); `-c`, `-l`, `-L` together with one of them exactly, by counting outputs; `-n` and `-b` exactly, by comparing the number of outputs and the sum of the numbers read off them. |
| C55 | R: sorting by a total preorder with last-resort comparison; merge tree of any shape, any distribution of the lines. |
| C56 | N for `-u` and `--group` (offered, wrong); proved for the rest against a reference uniq. For `-u` also when it is right (Props/Unique.lean): always if no lines of different parts compare equal, and exactly for which cuts if equal lines are adjacent (two parts; then any number of parts in Props/UniqueParts.lean, by the parity of the parts in which a line is alone). For `--group` with `prepend`, `append` or `both`: right exactly when at most one part is not empty, by counting lines (Props/GroupParts.lean). |
| C57 | N: the file is overwritten exactly when it exists. |
| C58 | R: equivalence on well-formed values; N for options with variables (`OptionWithIOVar` has no `__eq__`). |
| C59 | D. |
| C60–C62 | R: laws between operations, from the characterisations of C40–C46. |
| C63, C64 | F: one inductive table per kind of information (`Spec/IOTable.lean`, `Spec/ParTable.lean`); soundness, completeness, unambiguity. |
| C65, C67, C68 | N: cut, sed and xargs are offered concatenation without conditions on delimiters, line numbers and batches; proved on the complement against `Spec/Programs.lean`. C68_batches_exact and C68_line_batches_exact: `xargs -n K` and `xargs -L K` for all K, against `Spec/Batches.lean`. |
| C66 | N/F: texts as lists of characters; the exact condition under which concatenation is right for tr, and the refutation for `tr -s` with the newline escape. |
| C69 | I over the tree of aggregators with auxiliary pipes, for any mapper and aggregator that compute summaries; bigrams as instance, N for empty parts. |
| C70 | N: null-terminated records are cut at newlines; proved for parts that end at records. Exact conditions for grep, sed and xargs from one lemma on programs that work record by record (Props/Records.lean). |
| C71 | I over the lines with the set of names already seen; the filter of `manpage-to-json.sh` commutes with lists of lines. |
| C72 | N: holds for lines of flags; options and mixed lines refuted for every page. I over the line for its layout (white space, brackets, words that follow): C72_layout. |
| C73 | I: invariant of the heap over all histories (parts of invocations are not known to the client and not shared), with a frame lemma per call. |
| C74, C75 | F: every heap method simulates the function on values, for the traversal once and for all. |
| C76 | N: refuted by a history; what holds follows from C73. |
| C77 | N: `Spec/Manual.lean` writes down the options of the twenty manual pages and how a plain command line is read; the databases are compared with it entry by entry (complete table, checked by the kernel) and the result is lifted to all lines by induction over the reading. The deviating spellings are listed and refuted. |
| C78–C81 | N: `Spec/Effects.lean` says from the manuals what a plain command line reads and writes; composed from C77, the table of readings (C63) and a complete comparison of option arguments in the databases with the manuals. Deviations are listed and refuted. |
| C82 | N: both constructors as total functions with an exact characterisation of refusal; `Spec/Constructors.lean` defines by induction the plans and information objects a user can have; induction over that. |
| C83 | N: texts as strings; prefix codes (a text tells the value and where it ends) composed along the structure of the classes; separators in operands handled by a lemma on non-overlapping occurrences. Colliding names are refuted for all names. |
| C84 | I/N: membership of each query characterised for all invocations; partition by counting, from an invariant of all generators; refuted for invocations with variables. |
| C85 | Refuted: the plans do not depend on such requests (from C86), and every plan offered runs the command on each part, so the text appears more than once. |
| C86 | I/N: the tables of C63 and C64 depend on the options only through presence and number; permutations of typed options by functionality of the data files. |
| C87 | N: as C83, for plans: a prefix code for Python's quoted strings, induction over the size of transformers, and the table of C64 for the plans the library makes. |
| C88 | N: I over the sequence of calls, with the list of typers as state; each of the 28 shipped generators is exhibited as a sequence of calls. |
| C89 | N for `adjf`: I over the sequence of calls; case analysis for the questions; the shipped generators are exhibited as sequences of calls. |
| C90 | Composition: C78 (what parsing gives), C79–C82 (what typing gives), any replacement of files by variables (`StandsFor`, shown to exist in C90_variables), then C54–C56 and C65–C68. The command line and the invocation are compared in `SamePrograms` (Spec/Lines.lean). |
| C91 | F: command names are split at slashes as `pkgutil.get_data` does; `Names` and `GoesThrough` (Spec/Grammar.lean) say on characters which path it is; induction over the characters. |
| C92 | I over histories: dictionaries and stores in a heap; a step that does not write a name leaves it as it is. |
| C93 | I over nested runs (`Spec/Nested.lean`): the mapper is again an invocation with one stream and the same command (C40), so a nested run is an execution with the same outputs; then C54–C56, C65, C67 give the commands. |
| C94 | I over the stages (`Spec/Pipelines.lean`): a concatenating stage that is right is line-wise (C53), and a line-wise function maps every split, also a deal, of an input to one of its output. C94_lines: the same for command lines, with C90. |
| C95 | F+I: threads are trees of accesses (`Model/Threads.lean`); a method whose thread runs alone does what the model on values says; a method that asks stores only what is there already. Invariant over the turns: each thread is where it would be alone in a world of its own that agrees on what it uses. Every schedule ends: well-foundedness. N: asking while another thread changes can undo the change. |
| C96 | N+I: a transition system of runs (`Model/CliSteps.lean`); invariant over all steps; ends by a decreasing sum. False when stopped between opening and closing the file and for two runs with the same file. |
| C97 | F+I: words are read into tokens and consumed as `argparse` does (`Model/ScriptArgs.lean`); an inductive relation says how settings are written (`Spec/ScriptArgs.lean`); both directions by induction over the words. False that a value can be given apart whenever it can be given with `=`. |
| C98 | F+I over the import loop (`Model/Registry.lean`): what is bound after it; refinement to the table of generators of the main model (C98_shipped). False for a command registered as `None`, for a file name in the guide and for `config/definitions.py`. |
| C99 | I over scripts and inputs: a reader and an interpreter for sed scripts (`Spec/Sed.lean`), of which only regular expressions are left open. Scripts that treat lines alone (`SedLocal`) are line-wise, so concatenation is right; for eight kinds of other scripts that are offered, the exact splits by counting lines or by comparing numbers of lines (Props/Sed.lean, Props/SedPositions.lean). For scripts with a range of lines, by the lines that are in a range when the parts are read alone and together (Spec/SedRanges.lean, Props/SedRanges.lean). |
| C100 | I over the lists of a JSON value (`Model/DataFiles.lean`): a file that has the documented form (`FileLists`, Spec/DataFiles.lean) gives the sets and dictionaries of the grammar, hence the grammar of C02 holds for every such file (C100_means); the shapes that raise nothing by cases on the value (C100_fits). Synonyms, pieces and clusters as equivalences over all files. Files of any other form that is not rejected: the same by I over the words with groups of arbitrary values (Spec/AnyFiles.lean; C100_any, C100_any_types) |
| C101 | I over the grammar of JSON (Spec/JsonText.lean): the reader accepts exactly the texts of the grammar and returns the value written (both directions, mutual inductions); the writer produces a text of the grammar, laid out in lines with four blanks for each level (C101_layout, I over the value). Then C100 for texts. The shipped texts are compared with the tables by kernel evaluation of the reader, one theorem for each file (the domain is these 24 files). |
| C102 | Path resolution as a relation (Spec/Files.lean: where a path leads in a tree with symbolic links), the model's resolution with fuel proved equal to it (I over the path and the number of links). Then: which file is opened, for all names; refuted for names with `..` on every machine; I over the path for names that stay below; refinement to C100 and C101 if the data directory holds plain files. |
| C103 | col after its manual as a page on which characters are written at a cursor (Spec/Col.lean). I over the text: a part that never goes above its first row is written below the rows before it as if alone; then I over the parts. Refuted for a part that begins with a vertical tab (C103_col_false, for all implementations). The description of col is from its manual and was not compared with the program. |
| C104 | I over the tree of aggregators for any recombining program (`tree_exact`, Props/OwnPlans.lean); the law is needed: parts `[a, b]`. For round robin, permutations are generated by swaps and dealing to two workers gives the swap. N for options (the data files list none), for test_one and test_two and for pairs of adjacent lines. |
| C105 | Encoders after the RFCs (Spec/Encodings.lean). Decoding a character is proved inverse to encoding it, both ways (arithmetic), then I over the bytes. JSON texts begin with an ASCII character and have no null characters (I over the grammar), hence the guess is right for each encoding (C105_encodings, both directions); combined with C102 for files on a machine (C105_described) and with C101 for the shipped files (C105_shipped). |
| C106 | The copied files are computed from a tree (`Model/Setup.lean`); they are exactly those of a specification by positions (Spec/Setup.lean; C106_files), copying works exactly under its conditions (C106_installable). A machine with the source tree and one with the copied files find the same file for every plain name (C106_same, from C102's path resolution), and nothing for other names (C106_default); that these differ is shown by a witness (C106_all_false). C106_shipped joins it with C102_shipped |
| C107 | The reading of a line depends only on what the file says about the words that it uses (Spec/Edits.lean): I over the words (C107_lines). Conversely one- and two-word lines tell the difference (C107_exact). Insertion and reordering of entries keep what is said about other words (C107_added, C107_order, witness C107_order_false); types by the last entry with the name (C107_typing, C107_removed) |
| C108 | The variables of an invocation stand for its operands and streams one by one, so the numbers in C42 can be read off the typed invocation (C108_streams); the table of C63 gives the condition command by command (Spec/Runs.lean; C108_exact), and C78's reading of plain lines gives it in terms of the words (C108_lines). The table of C64 gives all offered mappers and aggregators (C108_aggregator). Witnesses: C108_false |
| C109 | Spec/Names.lean gives programs their inputs with the names under which they find them. Every execution of a plan that concatenates gives the outputs on the parts under their names (from C40 and C47). Hence an exact condition for grep with -H, which no execution with pipes meets once something is printed (C109_false), and that names do no harm otherwise (C109_nameless). |
| C110 | Model/OldData.lean holds the older annotations, generated from their files; Model/Old.lean reads their predicates on parsed invocations, after their README (their interpreter is not in the repository). The classes of the commands with parallelizers are computed (C110_classes) and compared with the table of C64, which gives an exact list of differences (C110_exact). |
| C111 | Spec/LastLine.lean defines the lines of a text, completing them, and parts that are cut or dealt at line ends. Executions on texts are turned into executions on lists of lines (induction on the tree of merges), so the earlier theorems apply. Programs that keep an incomplete last line are treated apart. Cuts inside of lines are refuted (C111_needed). |
| C112 | Spec/Status.lean gives programs a status. The status of every execution of a plan that concatenates is the one of cat (from C40 and C47), which gives an exact condition and a refutation for grep. |
| C113 | Model/Show.lean is the loop of `standard_repr` over the attributes of Model/PyObj.lean; by induction it gives the texts of Model/Text.lean and Model/PlanText.lean. Equal objects are the same (C58), hence print alike; for dictionaries the order matters: refutation by renaming, and a proof for the same order. |
| C114 | The inputs and outputs of the older annotations are in Model/OldData.lean, and Model/Old.lean says which files they stand for. They are compared with the streams of typed invocations, which the table of C63 gives, command by command (C114_streams). |
| C115 | Spec/ManyInputs.lean says what a caller makes of an invocation with several inputs, with the library's `remove_streaming_inputs` and `make_cat_command_invocation_with_io_vars`. What the result looks like follows from C46 and C47 (C115_prepared, C115_cat); the theorems about executions (C53, C55, C109, C111) are applied to it. Exactly if the command treats its inputs as one, nothing changes (C115_exact); grep with several files does not (C115_grep, C115_false). |
| C116 | Spec/Schedules.lean says which commands a caller makes for a pipeline, and lets them run at the same time: a step is a piece of input arriving, a command writing what its inputs so far determine, or a command stopping. From C46–C48 each variable has one writer and one reader and the commands are in an order without cycles (C116_wired). Then all runs go towards one assignment of contents (invariant), something can be done until all writers have stopped (induction over the order), and a measure falls. With C94 the result is that of the sequence. |
| C117 | Spec/Buffers.lean makes the commands processes that read and write one element at a time, with pipes of any size of at least one. Invariant: each process is where it would be after some number of steps alone with complete inputs. Whoever is waited for can go on, because a pipe on which someone waits is empty (induction over the order of C116). C117_processes: every program is carried out by some process. |
| C118 | Spec/AuxSchedules.lean says which commands a caller makes for a plan with auxiliary pipes and takes a command as several writers, one for each operand that its access map declares to be an output. From C49 each variable has one writer and one reader and the writers are in an order without cycles; the proof then goes as for C116, and the contents towards which all runs go are an execution in the sense of C69. C118_commands: such commands exist for any positive number of parts. |
| C119 | Spec/Crashes.lean adds to the runs of C116 the death of a command and the early end of an input, and records who was killed. Invariant: what has been written is a beginning of what the writer gives for any contents that its inputs can still have. Conversely, for any such contents the commands are run in the order of C116, each up to where it is killed (C119_killed, C119_contents). Stages that are right alone treat lines by themselves (C94), so beginnings go to beginnings; for a sort, an ordered list that is part of another one up to the order is a sublist of it ordered. C119_undisturbed: without a death the runs are those of C116. |
| C120 | A third kind of run of the commands with auxiliary pipes (`AuxCrashRun`, Spec/AuxCrashes.lean): writers work, die at any moment, or inputs break off. Invariant by induction on runs: each variable holds a beginning of what its writer gives for what its inputs hold; conversely each family of such contents is reached. For bigrams_aux the possible results are computed exactly (`Remains`) by induction on the tree; the claim that no line is wrong is refuted by a run, and at most one line per place of a split is shown to be wrong. |
| C121 | The class that a file of the older annotations gives (`OldSays`, computed in C110_classes) against what the manuals of the programs say (`GrepProgram`, `CutProgram`, `TrProgram`, `XargsProgram`, `ColProgram`, and `CatLines` with numbering and squeezing, Spec/OldClasses.lean). Being stateless is `LineWise` or, on texts, `LineWiseText`. For grep a theorem on all options: lines are treated by themselves exactly under `GrepByLines`; a limit is excluded by repeating a line that matches more often than the limit and the context allow, context by a line beside a match, the separator by two groups. |
| C122 | A machine on which each file is cut anywhere (`Interrupted`, Spec/PartialFiles.lean, by positions in the tree) against the complete one, with `Files.getJson`, `Files.parse` and `Files.initialInfo` of C102. First for texts: the grammar of JSON objects is such that a beginning of a text that is itself a text lacks only blanks (C122_text, by scanning both), also for what the script for manual pages has printed when it is interrupted (C122_generated). Then for bytes: two encodings of which one begins with the other (C122_bytes). Then for machines, by induction on the path (C122_machine). False for files that are missing altogether, for which the default file is used (C122_missing_false). |
| C123 | `get_json_data` with the two files opened on two machines (`Model/Updates.lean`), each of which has the old or the new version of each of the two files (`DuringUpdate`, Spec/Updates.lean). By cases on which version is opened. False if the command has a file in only one version and the default file changes (N, C123_false); otherwise proved (C123_described_partial, C123_lines_partial). |
| C124 | The reductions of the table as functions of two outputs (`Model/Reductions.lean`), the programs after their manuals (`Combines` and the programs, Spec/Reductions.lean). By induction on the first part; for `uniq` and `uniq -d` by how the runs of equal lines of two parts meet. False for `rev`, `uniq -d`, `wc` cut inside a word, `sort -h`, `tr -s` with a translation that is not idempotent, `join` with the second input cut (N); exact conditions are proved for these (for `join` a sufficient one), and for which commands there is a reduction at all (C124_possible_exact, C124_repair). |
| C125 | Spec/AuxBuffers.lean: commands as processes that read and write a line at a time, close outputs and stop; pipes with sizes; a program is what such a process does alone with complete inputs. Each process in the network is where it is after some steps alone with the final contents of its inputs; with large pipes a process whose inputs have ended can always go on, by induction along the order of C118. If processes read and write in order (`InTurns`), one line of room is enough: what one command writes is read in the same order (from C49), so a process that is waited for does not wait for room; induction from the first command for those that wait for inputs, and from the last for those that wait for room. False for smaller pipes otherwise (N): a process that reads its inputs from the last to the first, and (Props/AuxScripts.lean) one that reads them in the order of the script `cat o1; paste t1 h2; cat o2; …`. |

Nothing in the list is outside what a model can express; C53–C56 rely on reference semantics of the
external commands, stated in `Spec/Streams.lean`.

## 4. Trusted base

Lean 4.33.0 kernel; the axioms `propext`, `Classical.choice`, `Quot.sound` at most (checked with
`#print axioms`, list per theorem in `AXIOMS.md`); the hand translation from Python to
Lean; `tools/gen_texts.py`, which copies the JSON files letter by letter (the tables that `tools/gen_data.py` makes of them are checked against the texts in Lean, C101); for C97 also the translation of `argparse` (Python 3.11), which is not part of
the repository; for C102 the description of path resolution in Linux and of `pkgutil.get_data`; for C106 the documentation of setuptools.

The repository's own tests are compared with the hand translation: `tools/gen_tests.py` turns all 316 assertions of the 43
tests into Lean (`Check/RepoTests.lean`), and all hold of the model. They are tests of the translation, not proofs.

The descriptions of the external programs in `Spec/` are assumptions of the theorems about parallel runs, written after the
manuals. Those that can be evaluated were compared with the programs on the development machine, on random inputs and
options: `Spec/Sed.lean` with GNU sed 4.9 (1500 cases), `Spec/SedRanges.lean` with the same (1500 cases), grep with GNU grep 3.11 (1500 cases), `uniq` and `tr` with
coreutils 9.4 (800 and 537 cases). The comparison changed three details of grep (a separator is printed with a context of zero
lines, `-m 0` prints no count, the last of `-l` and `-L` decides) and one of `cut` (an empty line if no field is selected);
afterwards there was no difference. These comparisons are tests of the assumptions, not part of any proof.
