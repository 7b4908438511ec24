# Axioms used by the theorems in MANIFEST.json

From `#print axioms`, made by `tools/axioms.py`.

## Classical.choice, Quot.sound, propext (547 theorems)

* `PashAnn.C01_quoting_round_trip`
* `PashAnn.C01_split_join`
* `PashAnn.C01_join_injective`
* `PashAnn.C02_split_ok_iff`
* `PashAnn.C02_rejection`
* `PashAnn.C03_nothing_lost`
* `PashAnn.C04_parse_iff_grammar`
* `PashAnn.C04_grammar_deterministic`
* `PashAnn.C05_after_first_operand`
* `PashAnn.C05_trailing_option_exception`
* `PashAnn.C06_flag_synonyms`
* `PashAnn.C07_option_synonyms`
* `PashAnn.C07_option_recognised`
* `PashAnn.C08_cluster_not_separate`
* `PashAnn.C08_cluster_partial`
* `PashAnn.C08_cluster_spelling`
* `PashAnn.C08_cluster_exact`
* `PashAnn.C09_compositional`
* `PashAnn.C10_uniq_file_name_is_flag`
* `PashAnn.C10_uniq_false`
* `PashAnn.C10_no_dash_operand_partial`
* `PashAnn.C11_dashdash_and_equals`
* `PashAnn.C11_equals_not_split`
* `PashAnn.C12_reparse_false`
* `PashAnn.C12_reparse_partial`
* `PashAnn.C12_reparse_exact`
* `PashAnn.C12_reparse_stable`
* `PashAnn.C13_options_typed`
* `PashAnn.C14_typing_preserves`
* `PashAnn.C15_operand`
* `PashAnn.C16_partition`
* `PashAnn.C16_names`
* `PashAnn.C17_warning_exact`
* `PashAnn.C18_other_outputs`
* `PashAnn.C19_io_lookup`
* `PashAnn.C19_par_lookup`
* `PashAnn.C20_refused`
* `PashAnn.C21_implicit_streams`
* `PashAnn.C22_filters`
* `PashAnn.C23_grep_awk`
* `PashAnn.C23_output`
* `PashAnn.C24_sort`
* `PashAnn.C25_mv`
* `PashAnn.C25_others`
* `PashAnn.C26_false_for_sed`
* `PashAnn.C26_false_for_others`
* `PashAnn.C26_stdin_claim_false`
* `PashAnn.C26_stdin_claim_partial`
* `PashAnn.C26_exact`
* `PashAnn.C27_false_for_tail`
* `PashAnn.C27_false_for_sed`
* `PashAnn.C27_declared_option_partial`
* `PashAnn.C28_round_robin`
* `PashAnn.C29_round_robin_chunks`
* `PashAnn.C30_only_implemented`
* `PashAnn.C30_unimplemented_gives_nothing`
* `PashAnn.C30_who_offers_unimplemented`
* `PashAnn.C30_grep_all_implemented`
* `PashAnn.C31_grep_decision`
* `PashAnn.C32_context_split_false`
* `PashAnn.C32_context_split_partial`
* `PashAnn.C32_long_false`
* `PashAnn.C33_sort_decision`
* `PashAnn.C34_merge_flags`
* `PashAnn.C35_newline_false`
* `PashAnn.C35_leading_newline_false`
* `PashAnn.C35_newline_partial`
* `PashAnn.C35_exact`
* `PashAnn.C36_uniq`
* `PashAnn.C36_sed`
* `PashAnn.C37_synonyms`
* `PashAnn.C39_repeated_false`
* `PashAnn.C39_sort_false`
* `PashAnn.C39_repeated_partial`
* `PashAnn.C39_exact`
* `PashAnn.C39_other_commands_partial`
* `PashAnn.C40_substitute`
* `PashAnn.C40_mapper`
* `PashAnn.C40_output_in_option_false`
* `PashAnn.C41_consistent`
* `PashAnn.C41_history`
* `PashAnn.C41_needs_fresh`
* `PashAnn.C42_exact_inputs`
* `PashAnn.C42_exact_outputs`
* `PashAnn.C42_all_used`
* `PashAnn.C42_numbers_partial`
* `PashAnn.C42_rejected_partial`
* `PashAnn.C43_read_back`
* `PashAnn.C44_undescribed`
* `PashAnn.C45_outcome`
* `PashAnn.C45_rename_partial`
* `PashAnn.C45_rejected`
* `PashAnn.C45_returns_partial`
* `PashAnn.C46_outcome`
* `PashAnn.C46_remove`
* `PashAnn.C46_returns`
* `PashAnn.C46_not_returning`
* `PashAnn.C47_concatenate`
* `PashAnn.C47_read_back`
* `PashAnn.C48_two_inputs`
* `PashAnn.C48_transformed_partial`
* `PashAnn.C48_fresh`
* `PashAnn.C48_clash`
* `PashAnn.C48_no_output_false`
* `PashAnn.C48_stale_entries`
* `PashAnn.C48_text`
* `PashAnn.C48_exact`
* `PashAnn.C48_made`
* `PashAnn.C49_mapper`
* `PashAnn.C49_mapper_exists`
* `PashAnn.C49_mapper_operands`
* `PashAnn.C49_aggregator`
* `PashAnn.C49_aggregator_rejected`
* `PashAnn.C50_add`
* `PashAnn.C50_add_flags`
* `PashAnn.C50_add_contents`
* `PashAnn.C50_idempotent`
* `PashAnn.C52_defined`
* `PashAnn.C52_unknown`
* `PashAnn.C52_append`
* `PashAnn.C52_injective_false`
* `PashAnn.C52_injective_partial`
* `PashAnn.C53_chunks`
* `PashAnn.C53_executable`
* `PashAnn.C53_necessary`
* `PashAnn.C53_offered`
* `PashAnn.C53_exact`
* `PashAnn.C54_context_exact`
* `PashAnn.C54_limit_exact`
* `PashAnn.C54_count_exact`
* `PashAnn.C54_listed_exact`
* `PashAnn.C54_unlisted_exact`
* `PashAnn.C54_numbers_exact`
* `PashAnn.C54_grep_partial`
* `PashAnn.C54_context_false`
* `PashAnn.C54_limit_false`
* `PashAnn.C55_sort`
* `PashAnn.C55_executable`
* `PashAnn.C55_random_offered`
* `PashAnn.C56_group_exact`
* `PashAnn.C56_uniq_partial`
* `PashAnn.C56_executable`
* `PashAnn.C56_unique_false`
* `PashAnn.C56_group_false`
* `PashAnn.C56_unique_partial`
* `PashAnn.C56_unique_exact`
* `PashAnn.C56_unique_parts_exact`
* `PashAnn.Cli.C57_overwrites_false`
* `PashAnn.Cli.C57_new_file_false`
* `PashAnn.Cli.C57_delivery_partial`
* `PashAnn.Cli.C57_relative_false`
* `PashAnn.C58_refl`
* `PashAnn.C58_symm`
* `PashAnn.C58_trans`
* `PashAnn.C58_initial`
* `PashAnn.C58_with_io`
* `PashAnn.C58_io_vars_partial`
* `PashAnn.C58_options_false`
* `PashAnn.C58_parallelizer`
* `PashAnn.C58_prefix`
* `PashAnn.Cli.C59_report_total`
* `PashAnn.Cli.C59_report_faithful`
* `PashAnn.Cli.C59_reasons`
* `PashAnn.Cli.C59_text`
* `PashAnn.C60_rename_back`
* `PashAnn.C61_substitute_twice`
* `PashAnn.C62_remove_inputs`
* `PashAnn.C62_remove_outputs`
* `PashAnn.C62_commute`
* `PashAnn.C63_table`
* `PashAnn.C63_unambiguous`
* `PashAnn.C63_complete`
* `PashAnn.C64_table`
* `PashAnn.C64_unambiguous`
* `PashAnn.C65_cut_partial`
* `PashAnn.C65_newline_false`
* `PashAnn.C66_exact`
* `PashAnn.C66_tr_partial`
* `PashAnn.C66_translate_delete`
* `PashAnn.C66_squeeze_false`
* `PashAnn.C67_sed_partial`
* `PashAnn.C67_numbered_false`
* `PashAnn.C67_last_false`
* `PashAnn.C67_exact`
* `PashAnn.C68_batches_partial`
* `PashAnn.C68_batches_exact`
* `PashAnn.C68_line_batches_partial`
* `PashAnn.C68_line_batches_exact`
* `PashAnn.C68_xargs_partial`
* `PashAnn.C68_lines_partial`
* `PashAnn.C68_batch_false`
* `PashAnn.C68_empty_false`
* `PashAnn.C69_bigrams_exact`
* `PashAnn.C69_summary`
* `PashAnn.C69_bigrams_partial`
* `PashAnn.C69_executable`
* `PashAnn.C69_empty_part_false`
* `PashAnn.C69_access`
* `PashAnn.C70_uniq_false`
* `PashAnn.C70_sed_exact`
* `PashAnn.C70_xargs_exact`
* `PashAnn.C70_grep_exact`
* `PashAnn.C70_records_partial`
* `PashAnn.C70_grep_false`
* `PashAnn.C70_cut_false`
* `PashAnn.C71_once`
* `PashAnn.C71_from_page`
* `PashAnn.C71_page_once`
* `PashAnn.C71_page_source`
* `PashAnn.C71_page_others`
* `PashAnn.C71_page_lines`
* `PashAnn.C72_layout`
* `PashAnn.C72_flags_partial`
* `PashAnn.C72_options`
* `PashAnn.C72_mixed`
* `PashAnn.C72_options_false`
* `PashAnn.C72_mixed_false`
* `PashAnn.C72_digit_false`
* `PashAnn.C72_uniq_shipped`
* `PashAnn.C73_only_announced_changes`
* `PashAnn.C73_independent`
* `PashAnn.C73_no_broken_object`
* `PashAnn.C74_substitute`
* `PashAnn.C74_substitute_same_list`
* `PashAnn.C74_replace_var`
* `PashAnn.C74_remove_inputs`
* `PashAnn.C74_remove_outputs`
* `PashAnn.C74_generate_inputs`
* `PashAnn.C74_generate_outputs`
* `PashAnn.C74_has_other_outputs`
* `PashAnn.C75_construct`
* `PashAnn.C75_mapper`
* `PashAnn.C75_aggregator`
* `PashAnn.C75_cat`
* `PashAnn.C76_raising_changes_nothing_false`
* `PashAnn.C76_unusable_after_exception`
* `PashAnn.C76_raising_partial`
* `PashAnn.C77_plain_lines_partial`
* `PashAnn.C77_synonyms_partial`
* `PashAnn.C77_swallowing_false`
* `PashAnn.C77_leaving_false`
* `PashAnn.C77_unknown_false`
* `PashAnn.C77_grep_false`
* `PashAnn.C77_uniq_false`
* `PashAnn.C77_sed_false`
* `PashAnn.C77_awk_false`
* `PashAnn.C77_tail_false`
* `PashAnn.C78_reads_announced_partial`
* `PashAnn.C78_announced_read_partial`
* `PashAnn.C78_assignment_false`
* `PashAnn.C79_writes_announced_partial`
* `PashAnn.C79_announced_written`
* `PashAnn.C79_mv_false`
* `PashAnn.C79_sed_awk_false`
* `PashAnn.C79_dash_false`
* `PashAnn.C80_stdin_announced_partial`
* `PashAnn.C80_stdin_read_partial`
* `PashAnn.C80_assignment_false`
* `PashAnn.C80_unread_false`
* `PashAnn.C81_stdout_announced_partial`
* `PashAnn.C81_stdout_written_partial`
* `PashAnn.C81_verbose_false`
* `PashAnn.C82_unwrapped`
* `PashAnn.C83_command_lines_false`
* `PashAnn.C83_typed_texts_differ_false`
* `PashAnn.C83_parsed_texts_differ_partial`
* `PashAnn.C83_parsed_exact`
* `PashAnn.C83_typed_texts_differ_partial`
* `PashAnn.C84_partition`
* `PashAnn.C84_warning`
* `PashAnn.C84_variables_false`
* `PashAnn.C85_not_looked_at_false`
* `PashAnn.C85_concatenate_false`
* `PashAnn.C85_uniq_false`
* `PashAnn.C85_sort_false`
* `PashAnn.C85_covered_or_listed`
* `PashAnn.C86_plans`
* `PashAnn.C86_plans_order`
* `PashAnn.C86_consulted_needed`
* `PashAnn.C86_reading`
* `PashAnn.C87_plans_differ_false`
* `PashAnn.C87_no_name_false`
* `PashAnn.C87_plans_differ_partial`
* `PashAnn.C87_infos_differ_partial`
* `PashAnn.C87_commands`
* `PashAnn.C87_reports_partial`
* `PashAnn.C87_names_literal`
* `PashAnn.C88_operands_partial`
* `PashAnn.C88_operands_exact`
* `PashAnn.C88_streaming_inputs_false`
* `PashAnn.C88_raises`
* `PashAnn.C88_streams`
* `PashAnn.C88_retract_false`
* `PashAnn.C89_defaults`
* `PashAnn.C89_adjf_false`
* `PashAnn.C89_obtained_partial`
* `PashAnn.C89_simple_raises`
* `PashAnn.C89_shipped`
* `PashAnn.C90_written`
* `PashAnn.C90_grep_partial`
* `PashAnn.C90_sort`
* `PashAnn.C90_uniq_partial`
* `PashAnn.C90_cut_partial`
* `PashAnn.C90_sed_partial`
* `PashAnn.C90_xargs_partial`
* `PashAnn.C90_tr_partial`
* `PashAnn.C90_runs`
* `PashAnn.C90_variables`
* `PashAnn.C90_programs`
* `PashAnn.C91_names`
* `PashAnn.C91_elsewhere`
* `PashAnn.C91_through_file`
* `PashAnn.C91_here`
* `PashAnn.C91_not_annotated`
* `PashAnn.C91_plain`
* `PashAnn.C92_last`
* `PashAnn.C92_initial`
* `PashAnn.C93_mapper`
* `PashAnn.C93_nested`
* `PashAnn.C93_sort`
* `PashAnn.C93_grep`
* `PashAnn.C93_uniq`
* `PashAnn.C93_cut`
* `PashAnn.C93_sed`
* `PashAnn.C93_exists`
* `PashAnn.C93_concatenation_runs`
* `PashAnn.C93_bigrams`
* `PashAnn.C94_pipeline`
* `PashAnn.C94_runs`
* `PashAnn.C94_manual`
* `PashAnn.C94_lines`
* `PashAnn.C94_sort_inside`
* `PashAnn.C95_every_schedule`
* `PashAnn.C95_asking`
* `PashAnn.C95_asking_while_changing_false`
* `PashAnn.C96_stopped_partial`
* `PashAnn.C96_lost_false`
* `PashAnn.C96_many`
* `PashAnn.C96_apart_partial`
* `PashAnn.C96_mixed_false`
* `PashAnn.C96_ends`
* `PashAnn.ScriptArgs.C97_accepted_exact`
* `PashAnn.ScriptArgs.C97_unambiguous`
* `PashAnn.ScriptArgs.C97_script`
* `PashAnn.ScriptArgs.C97_joined`
* `PashAnn.ScriptArgs.C97_separate_exact`
* `PashAnn.ScriptArgs.C97_separate_false`
* `PashAnn.ScriptArgs.C97_help_only`
* `PashAnn.ScriptArgs.C97_help_exact`
* `PashAnn.ScriptArgs.C97_usage_exact`
* `PashAnn.Registry.C98_loads_exact`
* `PashAnn.Registry.C98_answers_exact`
* `PashAnn.Registry.C98_unknown`
* `PashAnn.Registry.C98_none_false`
* `PashAnn.Registry.C98_adding`
* `PashAnn.Registry.C98_missing`
* `PashAnn.Registry.C98_guide_false`
* `PashAnn.Registry.C98_shipped`
* `PashAnn.Registry.C98_definitions_false`
* `PashAnn.Registry.C98_files_false`
* `PashAnn.C99_local`
* `PashAnn.C99_number_exact`
* `PashAnn.C99_last_exact`
* `PashAnn.C99_quit_exact`
* `PashAnn.C99_exchange_exact`
* `PashAnn.C99_reverse_exact`
* `PashAnn.C99_position_exact`
* `PashAnn.C99_second_exact`
* `PashAnn.C99_withheld`
* `PashAnn.C99_range_closed`
* `PashAnn.C99_range_exact`
* `PashAnn.C99_range_change_exact`
* `PashAnn.C99_range_false`
* `PashAnn.C99_numbers_exact`
* `PashAnn.C100_any`
* `PashAnn.C100_any_groups`
* `PashAnn.C100_any_types`
* `PashAnn.C100_means`
* `PashAnn.C100_fits`
* `PashAnn.C100_all_or_none`
* `PashAnn.C100_other_commands`
* `PashAnn.C100_types`
* `PashAnn.C100_flag_synonyms`
* `PashAnn.C100_option_synonyms`
* `PashAnn.C100_listed_twice_false`
* `PashAnn.C100_compositional`
* `PashAnn.C100_clusters`
* `PashAnn.C100_shipped`
* `PashAnn.C100_shipped_types`
* `PashAnn.C100_types_fits`
* `PashAnn.C101_layout`
* `PashAnn.C101_page_layout`
* `PashAnn.C101_reads`
* `PashAnn.C101_one_value`
* `PashAnn.C101_printed`
* `PashAnn.C101_ascii`
* `PashAnn.C101_file`
* `PashAnn.C101_file_accepted`
* `PashAnn.C101_generated`
* `PashAnn.C101_generated_types`
* `PashAnn.C101_shipped`
* `PashAnn.C101_shipped_types`
* `PashAnn.C102_opened`
* `PashAnn.C102_consulted`
* `PashAnn.C102_raises`
* `PashAnn.C102_own_files_false`
* `PashAnn.C102_place`
* `PashAnn.C102_installed`
* `PashAnn.C102_shipped`
* `PashAnn.C102_long`
* `PashAnn.C103_col_partial`
* `PashAnn.C103_plain_partial`
* `PashAnn.C103_col_false`
* `PashAnn.C104_alt_bigrams_exact`
* `PashAnn.C104_alt_bigrams_false`
* `PashAnn.C104_sort_exact`
* `PashAnn.C104_line_wise`
* `PashAnn.C104_tests_false`
* `PashAnn.C104_words`
* `PashAnn.C104_custom_sort_false`
* `PashAnn.C105_described`
* `PashAnn.C105_encodings`
* `PashAnn.C105_one_value`
* `PashAnn.C105_utf8`
* `PashAnn.C105_shipped`
* `PashAnn.C106_files`
* `PashAnn.C106_installable`
* `PashAnn.C106_same`
* `PashAnn.C106_default`
* `PashAnn.C106_all_false`
* `PashAnn.C106_new_command`
* `PashAnn.C106_shipped`
* `PashAnn.C107_lines`
* `PashAnn.C107_exact`
* `PashAnn.C107_added`
* `PashAnn.C107_order`
* `PashAnn.C107_order_false`
* `PashAnn.C107_typing`
* `PashAnn.C107_removed`
* `PashAnn.C108_streams`
* `PashAnn.C108_exact`
* `PashAnn.C108_bigrams`
* `PashAnn.C108_lines`
* `PashAnn.C108_aggregator`
* `PashAnn.C108_false`
* `PashAnn.C109_nameless`
* `PashAnn.C109_grep_exact`
* `PashAnn.C109_offered`
* `PashAnn.C109_false`
* `PashAnn.C110_exact`
* `PashAnn.C110_aggregators`
* `PashAnn.C110_missing`
* `PashAnn.C110_false`
* `PashAnn.C111_lines`
* `PashAnn.C111_right`
* `PashAnn.C111_parts`
* `PashAnn.C111_sort`
* `PashAnn.C111_completing`
* `PashAnn.C111_keeping`
* `PashAnn.C111_needed`
* `PashAnn.C112_exact`
* `PashAnn.C112_grep_exact`
* `PashAnn.C112_sort`
* `PashAnn.C112_sort_executable`
* `PashAnn.C112_false`
* `PashAnn.C113_shows`
* `PashAnn.C113_texts`
* `PashAnn.C113_equal`
* `PashAnn.C113_vars_false`
* `PashAnn.C113_vars_partial`
* `PashAnn.C113_vars_shows`
* `PashAnn.C114_streams`
* `PashAnn.C114_false`
* `PashAnn.C115_prepared`
* `PashAnn.C115_cat`
* `PashAnn.C115_exact`
* `PashAnn.C115_lines`
* `PashAnn.C115_sort`
* `PashAnn.C115_commands`
* `PashAnn.C115_texts`
* `PashAnn.C115_texts_exact`
* `PashAnn.C115_grep`
* `PashAnn.C115_grep_names`
* `PashAnn.C115_false`
* `PashAnn.C116_wired`
* `PashAnn.C116_schedules`
* `PashAnn.C116_ends`
* `PashAnn.C116_result`
* `PashAnn.C116_manual`
* `PashAnn.C116_commands`
* `PashAnn.C117_sizes`
* `PashAnn.C117_ends`
* `PashAnn.C117_result`
* `PashAnn.C117_manual`
* `PashAnn.C118_wired`
* `PashAnn.C118_schedules`
* `PashAnn.C118_ends`
* `PashAnn.C118_bigrams`
* `PashAnn.C118_commands`
* `PashAnn.C118_bigrams_commands`
* `PashAnn.C119_always`
* `PashAnn.C119_killed`
* `PashAnn.C119_contents`
* `PashAnn.C119_beginnings`
* `PashAnn.C119_sublist`
* `PashAnn.C119_exact`
* `PashAnn.C119_part_lost`
* `PashAnn.C119_sort`
* `PashAnn.C119_manual`
* `PashAnn.C120_always`
* `PashAnn.C120_killed`
* `PashAnn.C120_contents`
* `PashAnn.C120_bigrams_exact`
* `PashAnn.C120_seams`
* `PashAnn.C120_false`
* `PashAnn.C121_grep_exact`
* `PashAnn.C121_grep_false`
* `PashAnn.C121_cut`
* `PashAnn.C121_xargs_exact`
* `PashAnn.C121_xargs_false`
* `PashAnn.C121_col_false`
* `PashAnn.C121_cat_exact`
* `PashAnn.C121_cat_false`
* `PashAnn.C122_text`
* `PashAnn.C122_generated`
* `PashAnn.C122_bytes`
* `PashAnn.C122_machine`
* `PashAnn.C122_missing_false`
* `PashAnn.C123_still`
* `PashAnn.C123_described_partial`
* `PashAnn.C123_lines_partial`
* `PashAnn.C123_false`
* `PashAnn.C124_join_partial`
* `PashAnn.C124_join_sorted_partial`
* `PashAnn.C124_wc_exact`
* `PashAnn.C124_wc_partial`
* `PashAnn.C124_uniq_d_exact`
* `PashAnn.C124_possible_exact`
* `PashAnn.C124_repair`
* `PashAnn.C125_large_partial`
* `PashAnn.C125_finite`
* `PashAnn.C125_processes`
* `PashAnn.C125_false`
* `PashAnn.C125_scripts`
* `PashAnn.C125_scripts_false`
* `PashAnn.C125_in_turns_partial`
* `PashAnn.C125_bigrams_partial`

## Quot.sound, propext (35 theorems)

* `PashAnn.C38_inferred`
* `PashAnn.C44_reading`
* `PashAnn.C44_option_variables_false`
* `PashAnn.C44_complete_partial`
* `PashAnn.C45_no_op`
* `PashAnn.C45_option_variables_false`
* `PashAnn.C49_stale_entries`
* `PashAnn.C50_add_repeats`
* `PashAnn.C50_chain`
* `PashAnn.C51_deduplication`
* `PashAnn.C51_stable`
* `PashAnn.C58_classes`
* `PashAnn.C82_information`
* `PashAnn.C84_queries`
* `PashAnn.C84_files_partial`
* `PashAnn.C84_config_inputs_false`
* `PashAnn.C88_shipped`
* `PashAnn.C89_nodes`
* `PashAnn.C89_simple`
* `PashAnn.C92_own`
* `PashAnn.C110_classes`
* `PashAnn.C117_processes`
* `PashAnn.C120_undisturbed`
* `PashAnn.C121_tr_exact`
* `PashAnn.C121_tr_partial`
* `PashAnn.C124_nl`
* `PashAnn.C124_rev_exact`
* `PashAnn.C124_rev_false`
* `PashAnn.C124_uniq`
* `PashAnn.C124_uniq_c`
* `PashAnn.C124_tr_s_exact`
* `PashAnn.C124_tr_s_false`
* `PashAnn.C124_sort_h_exact`
* `PashAnn.C124_sort_h_false`
* `PashAnn.C125_turns`

## no axioms (7 theorems)

* `PashAnn.C16_predicates`
* `PashAnn.C82_mapper_makers`
* `PashAnn.C89_makers`
* `PashAnn.C124_parts`
* `PashAnn.C124_join_false`
* `PashAnn.C124_wc_false`
* `PashAnn.C124_uniq_d_false`

## propext (23 theorems)

* `PashAnn.C15_dash`
* `PashAnn.C42_needs_fresh`
* `PashAnn.C49_mapper_rejected`
* `PashAnn.C50_fold`
* `PashAnn.C50_constant`
* `PashAnn.C50_remove_filter`
* `PashAnn.C50_defaults`
* `PashAnn.C53_filters`
* `PashAnn.C60_needs_fresh`
* `PashAnn.C82_plan`
* `PashAnn.C82_makers`
* `PashAnn.C82_mapper_spec`
* `PashAnn.C82_built`
* `PashAnn.C83_texts_differ_false`
* `PashAnn.C84_inputs`
* `PashAnn.C89_methods`
* `PashAnn.C89_questions`
* `PashAnn.C89_splitters`
* `PashAnn.C95_ends`
* `PashAnn.C100_one_entry`
* `PashAnn.C119_undisturbed`
* `PashAnn.C124_concat`
* `PashAnn.C124_sort`
