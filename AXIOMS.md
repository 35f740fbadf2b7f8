# Axioms of each theorem

Output of `#print axioms` for the theorems of `MANIFEST.json`, per property.

| property | theorem | axioms |
|---|---|---|
| C01 | `c01_order_one_direction` | propext, Classical.choice, Quot.sound |
| C01 | `c01_needs_source_hypothesis` | propext, Quot.sound |
| C02 | `c02_order_exactly_connected` | propext, Classical.choice, Quot.sound |
| C02 | `c02_needs_source_hypothesis` | propext, Quot.sound |
| C03 | `c03_cycle_iff` | propext, Classical.choice, Quot.sound |
| C03 | `c03_reported_cycle_real` | propext, Classical.choice, Quot.sound |
| C03 | `c03_cycle_may_be_reversed` | propext, Quot.sound |
| C04 | `c04_order_independent` | propext, Classical.choice, Quot.sound |
| C04 | `c04_failure_independent` | propext, Classical.choice, Quot.sound |
| C05 | `c05_order_no_internal_error` | propext, Classical.choice, Quot.sound |
| C05 | `c05_toposort_no_internal_error` | propext, Classical.choice, Quot.sound |
| C05 | `c05_reverse_graph` | propext, Classical.choice, Quot.sound |
| C05 | `c05_open_graph_key_error` | propext |
| C06 | `c06_toposort_sorted` | propext, Classical.choice, Quot.sound |
| C06 | `c06_toposort_fails_iff_cycle` | propext, Classical.choice, Quot.sound |
| C07 | `c07_referential_integrity_partial` | propext, Classical.choice, Quot.sound |
| C07 | `c07_sample_from_source` | propext, Classical.choice, Quot.sound |
| C07 | `c07_run_partial` | propext, Classical.choice, Quot.sound |
| C07 | `c07_all_amount_breaks_keys` | propext, Classical.choice, Quot.sound |
| C08 | `c08_forward_rows` | propext, Classical.choice, Quot.sound |
| C08 | `c08_forward_maximal_partial` | propext, Classical.choice, Quot.sound |
| C08 | `c08_null_reference_dropped` | propext, Classical.choice, Quot.sound |
| C09 | `c09_backward_rows` | propext, Classical.choice, Quot.sound |
| C09 | `c09_every_table_has_a_reason` | propext, Classical.choice, Quot.sound |
| C10 | `c10_union_partial` | propext, Classical.choice, Quot.sound |
| C10 | `c10_both_sets_included` | propext, Classical.choice, Quot.sound |
| C10 | `c10_without_amount_everything` | propext, Classical.choice, Quot.sound |
| C10 | `c10_excess_rows` | propext, Classical.choice, Quot.sound |
| C11 | `c11_all_overrides_partial` | propext, Classical.choice, Quot.sound |
| C11 | `c11_targets_planned` | propext, Classical.choice, Quot.sound |
| C11 | `c11_amount_not_overridden` | propext, Classical.choice, Quot.sound |
| C12 | `c12_constraints_partial` | propext, Classical.choice, Quot.sound |
| C12 | `c12_target_constraints_ignored` | propext, Classical.choice, Quot.sound |
| C13 | `c13_passthrough` | propext, Classical.choice, Quot.sound |
| C14 | `c14_ignored` | propext, Classical.choice, Quot.sound |
| C15 | `c15_rewritten_keys` | propext, Quot.sound |
| C15 | `c15_ignore_extra` | propext, Quot.sound |
| C15 | `c15_fails_only_on_bad_names` | propext, Quot.sound |
| C16 | `c16_open_reference_fails` | propext, Classical.choice, Quot.sound |
| C16 | `c16_key_error` | propext, Classical.choice, Quot.sound |
| C16 | `c16_closed_selection_partial` | propext, Classical.choice, Quot.sound |
| C17 | `c17_inference_exact` | propext, Quot.sound |
| C18 | `c18_selection_closure` | propext, Classical.choice, Quot.sound |
| C19 | `c19_no_internal_error` | propext, Classical.choice, Quot.sound |
| C19 | `c19_errors_documented` | propext, Classical.choice, Quot.sound |
| C19 | `c19_empty_target_name_accepted` | propext, Classical.choice, Quot.sound |
| C20 | `c20_condition_simplify_same_partial` | propext, Classical.choice, Quot.sound |
| C20 | `c20_condition_simplify_total` | propext, Classical.choice, Quot.sound |
| C20 | `c20_condition_simplify_smaller` | propext, Classical.choice, Quot.sound |
| C20 | `c20_subquery_counterexample` | propext, Classical.choice, Quot.sound |
| C21 | `c21_statement_simplify_same_rows_partial` | propext, Classical.choice, Quot.sound |
| C21 | `c21_select_simplify_same_list_partial` | propext, Classical.choice, Quot.sound |
| C21 | `c21_statement_simplify_total` | propext, Classical.choice, Quot.sound |
| C21 | `c21_union_merge_drops_joins` | propext, Classical.choice, Quot.sound |
| C21 | `c21_union_merge_keeps_duplicates` | propext, Classical.choice, Quot.sound |
| C21 | `c21_empty_union_fails` | propext, Quot.sound |
| C22 | `c22_join_rows` | propext, Classical.choice, Quot.sound |
| C22 | `c22_half_unique_irrelevant` | propext, Classical.choice, Quot.sound |
| C22 | `c22_needs_primary_key` | propext, Classical.choice, Quot.sound |
| C23 | `c23_materialisation_order` | propext, Classical.choice, Quot.sound |
| C23 | `c23_cycle_reported` | propext, Classical.choice, Quot.sound |
| C23 | `c23_execution_is_sample` | propext, Classical.choice, Quot.sound |
| C23 | `c23_listing_order_irrelevant` | propext, Classical.choice, Quot.sound |
| C24 | `c24_no_copy_twice` | propext, Quot.sound |
| C24 | `c24_references_resolve_partial` | propext, Classical.choice, Quot.sound |
| C24 | `c24_copy_missing` | propext, Classical.choice, Quot.sound |
| C24 | `c24_own_copy_twice` | propext |
| C25 | `c25_names_distinct` | propext, Classical.choice, Quot.sound |
| C25 | `c25_names_prefixed` | propext, Quot.sound |
| C26 | `c26_column_injective` | propext, Quot.sound |
| C26 | `c26_null` | propext |
| C26 | `c26_primary_keys_distinct` | propext, Classical.choice, Quot.sound |
| C27 | `c27_children_multiplied_partial` | propext, Classical.choice, Quot.sound |
| C27 | `c27_references_kept_partial` | propext, Classical.choice, Quot.sound |
| C27 | `c27_same_copy` | propext, Classical.choice, Quot.sound |
| C27 | `c27_renamed_column_not_multiplied` | propext |
| C27 | `c27_key_into_passthrough_multiplied` | propext |
| C28 | `c28_terminates` | propext, Classical.choice, Quot.sound |
| C28 | `c28_exact` | propext, Classical.choice, Quot.sound |
| C28 | `c28_passthrough_rejected` | propext, Classical.choice, Quot.sound |
| C28 | `c28_no_multiplier` | propext |
| C29 | `c29_above_existing` | propext, Classical.choice, Quot.sound |
| C29 | `c29_keys_unique` | propext, Classical.choice, Quot.sound |
| C29 | `c29_distinct` | propext, Quot.sound |
| C29 | `c29_unshifted` | propext, Classical.choice, Quot.sound |
| C29 | `c29_readme_differs` | propext |
| C29 | `c29_negative_collides` | propext |
| C30 | `c30_same_shift` | propext, Classical.choice, Quot.sound |
| C30 | `c30_reference_kept_partial` | propext, Classical.choice, Quot.sound |
| C30 | `c30_copies_kept_partial` | propext, Classical.choice, Quot.sound |
| C30 | `c30_passthrough_kept_partial` | propext, Classical.choice, Quot.sound |
| C30 | `c30_chain_broken` | propext |
| C30 | `c30_passthrough_key_broken` | propext |
| C30 | `c30_passthrough_child_broken` | propext |
| C30 | `c30_composite_broken` | propext |
| C30 | `c30_unknown_parent_fails` | propext |
| C31 | `c31_ids_fill` | propext, Classical.choice, Quot.sound |
| C31 | `c31_order` | propext, Classical.choice, Quot.sound |
| C31 | `c31_written` | propext |
| C32 | `c32_run_partial` | propext, Classical.choice, Quot.sound |
| C32 | `c32_reference_kept_partial` | propext, Classical.choice, Quot.sound |
| C32 | `c32_planned_run_partial` | propext, Classical.choice, Quot.sound |
| C32 | `c32_planned_references_partial` | propext, Classical.choice, Quot.sound |
| C32 | `c32_columns` | propext, Classical.choice, Quot.sound |
| C32 | `c32_named_column_breaks_reference` | propext, Classical.choice, Quot.sound |
| C32 | `c32_chain_not_followed` | propext, Classical.choice, Quot.sound |
| C32 | `c32_duplicates_rows` | propext, Classical.choice, Quot.sound |
| C32 | `c32_dangling_reference_lost` | propext, Classical.choice, Quot.sound |
| C32 | `c32_two_keys_one_column` | propext |
| C33 | `c33_written_once_in_order` | propext, Classical.choice, Quot.sound |
| C33 | `c33_failure_keeps_prefix` | propext, Classical.choice, Quot.sound |
| C34 | `c34_error` | propext, Classical.choice, Quot.sound |
| C34 | `c34_skip` | propext, Classical.choice, Quot.sound |
| C34 | `c34_replace` | propext, Classical.choice, Quot.sound |
| C34 | `c34_no_primary_key` | propext, Classical.choice, Quot.sound |
| C34 | `c34_other_dialects` | propext, Classical.choice, Quot.sound |
| C34 | `c34_key_column_omitted` | propext, Quot.sound |
| C34 | `c34_sqlite_resets_unwritten` | propext |
| C34 | `c34_sqlite_generated_column` | propext |
| C35 | `c35_rerun_converges` | propext, Classical.choice, Quot.sound |
| C35 | `c35_rerun_error` | propext, Classical.choice, Quot.sound |
| C35 | `c35_other_random_values` | propext |
| C36 | `c36_truncation` | propext, Classical.choice, Quot.sound |
| C36 | `c36_emptied` | propext, Classical.choice, Quot.sound |
| C36 | `c36_insertion_partial` | propext, Classical.choice, Quot.sound |
| C36 | `c36_insertion_error` | propext, Classical.choice, Quot.sound |
| C36 | `c36_skip_dangles` | propext |
| C37 | `c37_no_merge` | propext, Quot.sound |
| C37 | `c37_refused` | propext, Classical.choice, Quot.sound |
| C38 | `c38_split_join` | propext |
| C38 | `c38_splits_iff_dot` | propext |
| C38 | `c38_join_split` | propext |
| C38 | `c38_names_differ` | propext |
| C38 | `c38_dot_in_schema` | none |
| C39 | `c39_order` | propext, Classical.choice, Quot.sound |
| C39 | `c39_create_writes_all` | propext, Classical.choice, Quot.sound |
| C39 | `c39_existing_written_partial` | propext, Classical.choice, Quot.sound |
| C39 | `c39_order_exists` | propext, Classical.choice, Quot.sound |
| C39 | `c39_copied` | propext, Quot.sound |
| C39 | `c39_missing_skipped` | propext |
| C39 | `c39_self_reference_fails` | propext |
| C40 | `c40_unnamed_columns_kept` | propext, Classical.choice, Quot.sound |
| C40 | `c40_columns_out` | propext, Quot.sound |
| C41 | `c41_rejected_partial` | propext, Quot.sound |
| C41 | `c41_accepted` | propext, Quot.sound |
| C41 | `c41_omit_unchecked` | propext |
| C42 | `c42_scrubbed` | propext, Quot.sound |
| C42 | `c42_scrubbing` | propext |
| C42 | `c42_readers_leak` | propext |
| C43 | `c43_first_match` | propext, Classical.choice, Quot.sound |
| C43 | `c43_no_omit` | propext, Quot.sound |
| C44 | `c44_merge_at` | propext, Classical.choice, Quot.sound |
| C44 | `c44_repeat` | propext, Classical.choice, Quot.sound |
| C44 | `c44_idempotent` | propext, Classical.choice, Quot.sound |
| C44 | `c44_single_file` | propext, Classical.choice, Quot.sound |
| C44 | `c44_last_mention_wins` | propext, Classical.choice, Quot.sound |
| C44 | `c44_empty_file_discards` | propext |
| C44 | `c44_lists_replaced` | propext |
| C45 | `c45_search` | propext, Classical.choice, Quot.sound |
| C46 | `c46_next_ahead` | propext, Classical.choice, Quot.sound |
| C46 | `c46_not_backwards_partial` | propext, Quot.sound |
| C46 | `c46_moves_backwards` | propext |
| C46 | `c46_failure_leaves_behind` | propext |
| C47 | `c47_precedence` | propext |
| C47 | `c47_environment_unused` | propext |
| C47 | `c47_consistent_partial` | propext |
| C47 | `c47_environment_dialect` | propext |
| C47 | `c47_empty_variables` | propext |
| C48 | `c48_earlier_tables` | propext, Classical.choice, Quot.sound |
| C48 | `c48_growing_source_partial` | propext, Classical.choice, Quot.sound |
| C48 | `c48_constant_source` | propext, Quot.sound |
| C48 | `c48_deleted_rows` | propext, Classical.choice, Quot.sound |
| C48 | `c48_fails` | propext, Classical.choice, Quot.sound |
| C48 | `c48_added_rows_passthrough` | propext, Classical.choice, Quot.sound |
| C48 | `c48_added_rows_all` | propext, Classical.choice, Quot.sound |
| C49 | `c49_round_trip` | propext, Classical.choice, Quot.sound |
| C49 | `c49_same_execution` | propext, Classical.choice, Quot.sound |
| C49 | `c49_planner` | propext, Classical.choice, Quot.sound |
| C49 | `c49_reader_total` | propext, Classical.choice, Quot.sound |
| C49 | `c49_aliases_needed` | propext, Quot.sound |
| C50 | `c50_one_line_per_copy` | propext, Classical.choice, Quot.sound |
| C51 | `c51_index_names_distinct` | propext, Classical.choice, Quot.sound |
| C52 | `c52_case_insensitive_partial` | propext, Classical.choice, Quot.sound |
| C52 | `c52_case_collision` | propext |
| C53 | `c53_half_unique_partial` | propext, Quot.sound |
| C53 | `c53_key_marked` | propext, Quot.sound |
| C53 | `c53_no_primary_key` | propext |
| C54 | `c54_zero_partial` | propext |
| C54 | `c54_boolean_becomes_int` | none |
| C55 | `c55_created_mirror_source` | propext, Classical.choice, Quot.sound |
| C55 | `c55_unplanned_reference_fails` | propext |
| C56 | `c56_not_more_often` | propext, Classical.choice, Quot.sound |
| C56 | `c56_constraints_hold` | propext, Classical.choice, Quot.sound |
| C56 | `c56_equal_rows_dropped` | propext, Classical.choice, Quot.sound |
| C57 | `c57_secured_partial` | propext |
| C57 | `c57_files` | propext |
| C57 | `c57_not_asked` | propext |
| C57 | `c57_verify_without_require` | propext |
| C57 | `c57_words_unchecked` | propext |
| C58 | `c58_exactly_the_sample` | propext, Classical.choice, Quot.sound |
| C58 | `c58_all_copied` | propext, Classical.choice, Quot.sound |
| C59 | `c59_create_and_fill` | propext, Classical.choice, Quot.sound |
| C59 | `c59_runnable` | propext, Classical.choice, Quot.sound |
| C59 | `c59_succeeds` | propext, Classical.choice, Quot.sound |
| C59 | `ax_create` | propext, Classical.choice, Quot.sound |
| C60 | `c60_always_intact_partial` | propext, Classical.choice, Quot.sound |
| C60 | `c60_created_partial` | propext, Classical.choice, Quot.sound |
| C60 | `ix_always_intact` | propext, Classical.choice, Quot.sound |
| C60 | `c60_multiplied_dangling` | propext, Classical.choice, Quot.sound |
| C61 | `c61_run` | propext, Classical.choice, Quot.sound |
| C61 | `c61_added` | propext, Classical.choice, Quot.sound |
| C61 | `c61_error` | propext, Classical.choice, Quot.sound |
| C62 | `c62_prefix` | propext, Classical.choice, Quot.sound |
| C62 | `c62_any_time` | propext, Classical.choice, Quot.sound |
| C63 | `c63_early_partial` | propext, Quot.sound |
| C63 | `c63_filters` | propext, Quot.sound |
| C63 | `c63_compact_late` | propext, Classical.choice, Quot.sound |
| C63 | `c63_compact_name_late` | propext, Classical.choice, Quot.sound |
| C63 | `c63_plan_late` | propext, Classical.choice, Quot.sound |
| C63 | `c63_columns_late` | propext, Classical.choice, Quot.sound |
| C63 | `c63_merge_late` | propext, Classical.choice, Quot.sound |
| C64 | `c64_closed` | propext, Classical.choice, Quot.sound |
| C64 | `c64_circles` | propext, Classical.choice, Quot.sound |
| C64 | `px_closed` | propext, Classical.choice, Quot.sound |
| C64 | `c64_ignored_missing` | propext, Classical.choice, Quot.sound |
| C64 | `c64_circle_passed` | propext, Classical.choice, Quot.sound |
| C65 | `c65_two_commands` | propext, Classical.choice, Quot.sound |
| C65 | `c65_two_commands_create` | propext, Classical.choice, Quot.sound |
| C65 | `c65_sections` | propext, Classical.choice, Quot.sound |
| C65 | `bx_subset` | propext, Classical.choice, Quot.sound |
| C65 | `bx_sample` | propext, Classical.choice, Quot.sound |
| C65 | `c65_no_sampler` | propext, Classical.choice, Quot.sound |
| C66 | `c66_files` | propext, Classical.choice, Quot.sound |
| C66 | `c66_failed` | propext, Classical.choice, Quot.sound |
| C66 | `c66_plain` | propext, Classical.choice, Quot.sound |
| C66 | `c66_planned` | propext, Classical.choice, Quot.sound |
| C67 | `c67_unclosed` | propext, Classical.choice, Quot.sound |
| C67 | `c67_language` | propext, Classical.choice, Quot.sound |
| C67 | `c67_literal` | propext, Classical.choice, Quot.sound |
| C67 | `c67_self` | propext, Classical.choice, Quot.sound |
| C67 | `c67_brackets` | propext, Quot.sound |
| C67 | `c67_not_found` | propext, Classical.choice, Quot.sound |
| C67 | `c67_planned` | propext, Classical.choice, Quot.sound |
| C67 | `c67_brackets_lost` | propext, Classical.choice, Quot.sound |
| C68 | `c68_meaning` | propext, Classical.choice, Quot.sound |
| C68 | `c68_null` | propext, Classical.choice, Quot.sound |
| C68 | `c68_opposite` | propext, Classical.choice, Quot.sound |
| C68 | `c68_fails_partial` | propext, Classical.choice, Quot.sound |
| C68 | `c68_null_fails` | propext, Classical.choice, Quot.sound |
| C68 | `c68_first` | propext, Classical.choice, Quot.sound |
| C68 | `c68_surprises` | propext, Quot.sound |
| C68 | `c68_late` | propext, Classical.choice, Quot.sound |
| C69 | `c69_values` | propext, Classical.choice, Quot.sound |
| C69 | `c69_never_fails_partial` | propext, Quot.sound |
| C69 | `c69_empty_range` | propext, Quot.sound |
| C69 | `c69_destination` | propext, Classical.choice, Quot.sound |
| C69 | `c69_any_time` | propext, Classical.choice, Quot.sound |
| C69 | `rm_any_time` | propext, Classical.choice, Quot.sound |
| C69 | `rm_run` | propext, Classical.choice, Quot.sound |
| C69 | `c69_multiplied` | propext, Classical.choice, Quot.sound |
| C69 | `c69_shifted` | propext, Classical.choice, Quot.sound |
| C70 | `c70_target_rows` | propext, Classical.choice, Quot.sound |
| C70 | `c70_thresholds` | propext, Classical.choice, Quot.sound |
| C70 | `c70_percent_total` | propext, Classical.choice, Quot.sound |
| C70 | `c70_percent_partial` | propext, Classical.choice, Quot.sound |
| C70 | `c70_amount` | propext, Classical.choice, Quot.sound |
| C70 | `c70_amount_fair` | propext, Classical.choice, Quot.sound |
| C70 | `c70_sqlite` | propext, Classical.choice, Quot.sound |
| C70 | `c70_eligible` | propext, Classical.choice, Quot.sound |
| C71 | `c71_config` | propext, Classical.choice, Quot.sound |
| C71 | `c71_unique` | propext, Classical.choice, Quot.sound |
| C71 | `c71_misspelt_partial` | propext, Classical.choice, Quot.sound |
| C71 | `c71_only` | propext, Quot.sound |
| C71 | `c71_planner` | propext, Classical.choice, Quot.sound |
| C71 | `c71_plan` | propext, Classical.choice, Quot.sound |
| C71 | `c71_misspelt_ignored` | propext, Quot.sound |
| C71 | `c71_filter` | propext, Classical.choice, Quot.sound |
| C71 | `c71_random_uuid` | propext, Classical.choice, Quot.sound |
| C71 | `c71_reference_refused` | propext, Classical.choice, Quot.sound |
| C72 | `c72_indexes` | propext, Classical.choice, Quot.sound |
| C72 | `c72_foreign_keys_partial` | propext, Quot.sound |
| C72 | `c72_same_names` | propext, Quot.sound |
| C72 | `c72_long_names` | propext, Quot.sound |
| C72 | `c72_joined_schemas` | propext |
| C72 | `c72_beside_source` | propext |
| C73 | `c73_subset` | propext, Classical.choice, Quot.sound |
| C73 | `c73_directory` | propext, Classical.choice, Quot.sound |
| C73 | `c73_two_commands` | propext, Classical.choice, Quot.sound |
| C73 | `c73_refused` | propext, Classical.choice, Quot.sound |
| C73 | `c73_done` | propext, Classical.choice, Quot.sound |
| C73 | `c73_intact_partial` | propext, Classical.choice, Quot.sound |
| C73 | `c73_follow_partial` | propext, Classical.choice, Quot.sound |
| C73 | `c73_enforced` | propext, Classical.choice, Quot.sound |
| C73 | `zx_subset` | propext, Classical.choice, Quot.sound |
| C73 | `zx_two` | propext, Classical.choice, Quot.sound |
| C73 | `zx_compact` | propext, Classical.choice, Quot.sound |
| C74 | `c74_always_intact_partial` | propext, Classical.choice, Quot.sound |
| C74 | `c74_created_partial` | propext, Classical.choice, Quot.sound |
| C74 | `c74_same_names` | propext, Quot.sound |
| C74 | `wx_always_intact` | propext, Classical.choice, Quot.sound |
| C74 | `wx_result` | propext, Classical.choice, Quot.sound |
| C74 | `c60_multiplied_dangling` | propext, Classical.choice, Quot.sound |
| C74 | `c74_inferred_partial` | propext, Classical.choice, Quot.sound |
| C75 | `c75_statement_partial` | propext, Classical.choice, Quot.sound |
| C75 | `c75_run_partial` | propext, Classical.choice, Quot.sound |
| C75 | `c75_planned_run` | propext, Classical.choice, Quot.sound |
| C75 | `c75_create_and_fill` | propext, Classical.choice, Quot.sound |
| C75 | `tx_planned` | propext, Classical.choice, Quot.sound |
| C75 | `tx_result` | propext, Classical.choice, Quot.sound |
| C75 | `c75_misspelt_column` | propext, Classical.choice, Quot.sound |
| C75 | `c75_raw_sql_error` | propext, Classical.choice, Quot.sound |
| C75 | `c75_lookup_numbers_twice` | propext, Classical.choice, Quot.sound |
| C75 | `tx_statement` | propext, Classical.choice, Quot.sound |
| C76 | `c76_no_trace` | propext, Classical.choice, Quot.sound |
| C76 | `c76_no_trace_in_files` | propext, Classical.choice, Quot.sound |
| C76 | `c76_no_trace_sql` | propext, Classical.choice, Quot.sound |
| C76 | `c76_target_tells` | propext, Classical.choice, Quot.sound |
| C76 | `c76_keyless_tells` | propext, Classical.choice, Quot.sound |
| C76 | `c76_unfiltered_tells` | propext, Classical.choice, Quot.sound |
| C77 | `c77_fresh` | propext, Classical.choice, Quot.sound |
| C77 | `c77_again` | propext, Classical.choice, Quot.sound |
| C77 | `c77_merge_adds_again` | propext, Classical.choice, Quot.sound |
| C77 | `c77_conflict` | propext, Classical.choice, Quot.sound |
| C78 | `c78_no_conflict` | propext, Classical.choice, Quot.sound |
| C78 | `c78_empty_tables` | propext, Classical.choice, Quot.sound |
| C78 | `wx_no_conflict` | propext, Classical.choice, Quot.sound |
| C78 | `wx_exempt` | propext, Classical.choice, Quot.sound |
| C78 | `wx_below` | propext, Classical.choice, Quot.sound |
| C79 | `c79_succeeds` | propext, Classical.choice, Quot.sound |
| C79 | `c79_create_filtered` | propext, Classical.choice, Quot.sound |
| C79 | `wx_works` | propext, Classical.choice, Quot.sound |
| C79 | `ax_create_filtered` | propext, Classical.choice, Quot.sound |
| C79 | `wx_text_key` | propext, Classical.choice, Quot.sound |
| C79 | `wx_omitted_key` | propext, Classical.choice, Quot.sound |
| C79 | `wx_no_column` | propext, Classical.choice, Quot.sound |
| C79 | `wx_blocked` | propext, Classical.choice, Quot.sound |
| C80 | `c80_same_ids_partial` | propext, Classical.choice, Quot.sound |
| C80 | `c80_follow_partial` | propext, Classical.choice, Quot.sound |
| C80 | `c80_inferred_partial` | propext, Classical.choice, Quot.sound |
| C80 | `c80_planner_inference_broken` | propext, Classical.choice, Quot.sound |
| C80 | `c80_extra_key_broken` | propext, Classical.choice, Quot.sound |
| C81 | `c81_run` | propext, Classical.choice, Quot.sound |
| C81 | `c81_exists` | propext, Classical.choice, Quot.sound |
| C81 | `c81_directory` | propext, Classical.choice, Quot.sound |
| C81 | `c81_plan` | propext, Classical.choice, Quot.sound |
| C81 | `c81_dependencies_not_inferred` | propext, Classical.choice, Quot.sound |
| C81 | `c81_created_without_inferred` | propext, Classical.choice, Quot.sound |
| C82 | `c82_unique` | propext, Classical.choice, Quot.sound |
| C82 | `c82_not_null` | propext, Classical.choice, Quot.sound |
| C82 | `c82_created` | propext, Classical.choice, Quot.sound |
| C82 | `wx_unique` | propext, Classical.choice, Quot.sound |
| C82 | `wx_not_null` | propext, Classical.choice, Quot.sound |
| C82 | `wu_created` | propext, Classical.choice, Quot.sound |
| C82 | `wu_constraint` | propext, Classical.choice, Quot.sound |
| C82 | `wu_multiplied` | propext, Classical.choice, Quot.sound |
| C82 | `wu_filtered` | propext, Classical.choice, Quot.sound |
| C82 | `wu_merged` | propext, Classical.choice, Quot.sound |
| C83 | `c83_accepts` | propext, Quot.sound |
| C83 | `c83_either` | propext, Quot.sound |
| C83 | `c83_never_violated` | propext, Quot.sound |
| C83 | `c83_enforced` | propext, Classical.choice, Quot.sound |
| C83 | `c83_created` | propext, Classical.choice, Quot.sound |
| C83 | `checkDb_iff` | propext, Classical.choice, Quot.sound |
| C83 | `wx_enforced` | propext, Classical.choice, Quot.sound |
| C83 | `wu_rejected` | propext, Classical.choice, Quot.sound |
| C83 | `wu_taken` | propext, Classical.choice, Quot.sound |
| C83 | `rx_dangling` | propext, Classical.choice, Quot.sound |
| C84 | `c84_success` | propext, Quot.sound |
| C84 | `c84_same` | propext, Quot.sound |
| C84 | `c84_states` | propext, Quot.sound |
| C84 | `c84_failed_differ` | propext, Classical.choice, Quot.sound |
| C84 | `bf_same` | propext, Classical.choice, Quot.sound |
| C85 | `c85_same_rows` | propext, Quot.sound |
| C85 | `c85_ahead_partial` | propext, Classical.choice, Quot.sound |
| C85 | `c85_created` | propext, Classical.choice, Quot.sound |
| C85 | `c85_merged` | propext, Classical.choice, Quot.sound |
| C85 | `c85_others` | propext, Classical.choice, Quot.sound |
| C85 | `c85_falls_back` | propext, Classical.choice, Quot.sound |
| C85 | `c85_failed_behind` | propext, Classical.choice, Quot.sound |
| C85 | `sq_merged` | propext, Classical.choice, Quot.sound |
| C86 | `c86_plan_status` | propext, Classical.choice, Quot.sound |
| C86 | `c86_plan_done` | propext, Classical.choice, Quot.sound |
| C86 | `c86_no_plan` | propext, Classical.choice, Quot.sound |
| C86 | `c86_leaves_files` | propext, Classical.choice, Quot.sound |
| C86 | `c86_failed_partial` | propext, Classical.choice, Quot.sound |
| C86 | `c86_unreadable` | propext, Classical.choice, Quot.sound |
| C86 | `c86_subset` | propext, Classical.choice, Quot.sound |
| C86 | `c86_sample` | propext, Classical.choice, Quot.sound |
| C86 | `c86_no_plan_file` | propext, Classical.choice, Quot.sound |
| C86 | `c86_default_config` | propext, Classical.choice, Quot.sound |
| C86 | `c86_stdin_both` | propext, Classical.choice, Quot.sound |
| C86 | `c86_stdin_twice` | propext, Classical.choice, Quot.sound |
| C86 | `c86_stdin_last` | propext, Classical.choice, Quot.sound |
| C86 | `c86_file_seen` | propext, Classical.choice, Quot.sound |
| C86 | `c86_pipe_seen` | propext, Classical.choice, Quot.sound |
| C86 | `c86_two_commands` | propext, Classical.choice, Quot.sound |
| C86 | `c86_verbose` | propext, Classical.choice, Quot.sound |
| C86 | `c86_quiet` | propext, Classical.choice, Quot.sound |
| C86 | `c86_dash` | propext, Classical.choice, Quot.sound |
| C86 | `c86_defaults` | propext, Classical.choice, Quot.sound |
| C86 | `c86_broken` | propext, Classical.choice, Quot.sound |
| C86 | `sh_two` | propext, Classical.choice, Quot.sound |
| C87 | `c87_respected` | propext, Classical.choice, Quot.sound |
| C87 | `c87_untouched` | propext, Classical.choice, Quot.sound |
| C87 | `c87_skip` | propext, Classical.choice, Quot.sound |
| C87 | `c87_accepted` | propext, Classical.choice, Quot.sound |
| C87 | `c87_fresh` | propext, Classical.choice, Quot.sound |
| C87 | `c87_same` | propext, Classical.choice, Quot.sound |
| C87 | `c87_created` | propext, Classical.choice, Quot.sound |
| C87 | `c87_skip_drops` | propext |
| C87 | `c87_replace_other` | propext |
| C87 | `cu_respects` | none |
| C87 | `cu_replaced` | propext |
| C87 | `cu_skipped` | propext |
| C87 | `wu_same` | propext, Classical.choice, Quot.sound |
| C87 | `wu_lost` | propext, Classical.choice, Quot.sound |
| C87 | `wu_replaced` | propext, Classical.choice, Quot.sound |
| C88 | `c88_planned` | propext, Classical.choice, Quot.sound |
| C88 | `c88_needed` | propext, Classical.choice, Quot.sound |
| C88 | `c88_enough` | propext, Classical.choice, Quot.sound |
| C88 | `c88_iff` | propext, Classical.choice, Quot.sound |
| C88 | `c88_database` | propext, Classical.choice, Quot.sound |
| C88 | `c88_documented` | propext, Classical.choice, Quot.sound |
| C88 | `c88_example` | propext, Classical.choice, Quot.sound |
| C88 | `c88_far_circle` | propext, Classical.choice, Quot.sound |
| C88 | `c88_against` | propext, Classical.choice, Quot.sound |
| C89 | `c89_same_plan` | propext, Classical.choice, Quot.sound |
| C89 | `c89_same_failure` | propext, Classical.choice, Quot.sound |
| C89 | `c89_meaning` | propext, Classical.choice, Quot.sound |
| C89 | `c89_database` | propext, Classical.choice, Quot.sound |
| C89 | `c89_example` | propext, Classical.choice, Quot.sound |
| C89 | `c89_example_applies` | propext, Classical.choice, Quot.sound |
| C90 | `c90_loosened_partial` | propext, Classical.choice, Quot.sound |
| C90 | `c90_same_tables` | propext, Classical.choice, Quot.sound |
| C90 | `c90_more` | propext, Classical.choice, Quot.sound |
| C90 | `c90_unaffected` | propext, Classical.choice, Quot.sound |
| C90 | `c90_grown_source` | propext, Classical.choice, Quot.sound |
| C90 | `c90_example_applies` | propext, Classical.choice, Quot.sound |
| C90 | `c90_example_before` | propext, Classical.choice, Quot.sound |
| C90 | `c90_example_after` | propext, Classical.choice, Quot.sound |
| C90 | `c90_limit_added` | propext, Classical.choice, Quot.sound |
| C90 | `c90_target_added` | propext, Classical.choice, Quot.sound |
| C90 | `c90_all_added` | propext, Classical.choice, Quot.sound |
| C91 | `c91_merge` | propext, Classical.choice, Quot.sound |
| C91 | `c91_sound` | propext, Classical.choice, Quot.sound |
| C91 | `c91_repeated` | propext, Classical.choice, Quot.sound |
| C91 | `c91_command` | propext, Classical.choice, Quot.sound |
| C91 | `c91_calls` | propext, Classical.choice, Quot.sound |
| C91 | `c91_example` | propext, Classical.choice, Quot.sound |
| C91 | `mi_run` | propext, Classical.choice, Quot.sound |
| C91 | `mi_sound` | propext, Classical.choice, Quot.sound |
| C91 | `mi_repeated` | propext, Classical.choice, Quot.sound |
| C91 | `mi_files` | propext, Classical.choice, Quot.sound |
| C91 | `mi_calls` | propext, Classical.choice, Quot.sound |
| C92 | `c92_merge` | propext, Classical.choice, Quot.sound |
| C92 | `c92_sound` | propext, Classical.choice, Quot.sound |
| C92 | `c92_keys` | propext, Classical.choice, Quot.sound |
| C92 | `c92_repeated` | propext, Classical.choice, Quot.sound |
| C92 | `c92_bound` | propext, Classical.choice, Quot.sound |
| C92 | `c92_no_gaps` | propext, Classical.choice, Quot.sound |
| C92 | `c92_command` | propext, Classical.choice, Quot.sound |
| C92 | `c92_calls` | propext, Classical.choice, Quot.sound |
| C92 | `c92_example` | propext, Classical.choice, Quot.sound |
| C92 | `c92_grows` | propext, Classical.choice, Quot.sound |
| C92 | `mi_compact_run` | propext, Classical.choice, Quot.sound |
| C92 | `mi_bound` | propext, Classical.choice, Quot.sound |
| C92 | `mi_compact_files` | propext, Classical.choice, Quot.sound |
| C93 | `c93_tables` | propext, Classical.choice, Quot.sound |
| C93 | `c93_merge` | propext, Classical.choice, Quot.sound |
| C93 | `c93_compact` | propext, Classical.choice, Quot.sound |
| C93 | `c93_ready` | propext, Classical.choice, Quot.sound |
| C93 | `c93_repeated` | propext, Classical.choice, Quot.sound |
| C93 | `c93_nothing_ready` | propext |
| C93 | `c93_from_nothing` | propext, Classical.choice, Quot.sound |
| C93 | `c93_command` | propext, Classical.choice, Quot.sound |
| C93 | `c93_command_rows` | propext, Classical.choice, Quot.sound |
| C93 | `c93_calls` | propext, Classical.choice, Quot.sound |
| C93 | `c93_example` | propext, Classical.choice, Quot.sound |
| C93 | `mc_route` | propext, Classical.choice, Quot.sound |
| C93 | `mc_run` | propext, Classical.choice, Quot.sound |
| C93 | `mc_runs` | propext, Classical.choice, Quot.sound |
| C93 | `mc_grown` | propext, Classical.choice, Quot.sound |
| C93 | `mc_files` | propext, Classical.choice, Quot.sound |
| C93 | `mc_calls` | propext, Classical.choice, Quot.sound |
| C94 | `c94_unsampled_rows` | propext, Classical.choice, Quot.sound |
| C94 | `c94_run` | propext, Classical.choice, Quot.sound |
| C94 | `c94_again` | propext, Classical.choice, Quot.sound |
| C94 | `c94_resample_partial` | propext, Classical.choice, Quot.sound |
| C94 | `c94_example` | propext, Classical.choice, Quot.sound |
| C94 | `c94_example_applies` | propext, Classical.choice, Quot.sound |
| C94 | `c94_amount_example` | propext, Classical.choice, Quot.sound |
| C94 | `c94_amount_applies` | propext, Classical.choice, Quot.sound |
| C94 | `c94_percent_again` | propext, Classical.choice, Quot.sound |
| C94 | `c94_amount_again` | propext, Classical.choice, Quot.sound |
| C94 | `c94_again_example` | propext, Classical.choice, Quot.sound |
| C94 | `c94_run_example` | propext, Classical.choice, Quot.sound |
| C95 | `c95_plan` | propext, Classical.choice, Quot.sound |
| C95 | `c95_source` | propext, Classical.choice, Quot.sound |
| C95 | `c95_destination` | propext, Classical.choice, Quot.sound |
| C95 | `c95_kept` | propext, Classical.choice, Quot.sound |
| C95 | `c95_command` | propext, Classical.choice, Quot.sound |
| C95 | `c95_example_applies` | propext, Classical.choice, Quot.sound |
| C95 | `c95_example` | propext, Classical.choice, Quot.sound |
| C95 | `c95_referring_matters` | propext, Classical.choice, Quot.sound |
| C96 | `c96_same_rows` | propext, Classical.choice, Quot.sound |
| C96 | `c96_identical` | propext, Classical.choice, Quot.sound |
| C96 | `c96_create` | propext, Classical.choice, Quot.sound |
| C96 | `c96_directory` | propext, Quot.sound |
| C96 | `so_truncated` | propext, Classical.choice, Quot.sound |
| C96 | `c96_example` | propext, Classical.choice, Quot.sound |
| C96 | `so_create` | propext, Classical.choice, Quot.sound |
| C96 | `so_merged` | propext, Classical.choice, Quot.sound |
| C96 | `c96_generated_differ` | propext, Classical.choice, Quot.sound |
| C97 | `c97_same_rows` | propext, Classical.choice, Quot.sound |
| C97 | `c97_identical` | propext, Classical.choice, Quot.sound |
| C97 | `od_filled` | propext, Classical.choice, Quot.sound |
| C97 | `od_created` | propext, Classical.choice, Quot.sound |
| C97 | `c97_example` | propext, Classical.choice, Quot.sound |
| C98 | `c98_resume` | propext, Classical.choice, Quot.sound |
| C98 | `c98_again` | propext, Classical.choice, Quot.sound |
| C98 | `c98_settled` | propext, Classical.choice, Quot.sound |
| C98 | `c98_many` | propext, Classical.choice, Quot.sound |
| C98 | `rt_ok` | propext, Classical.choice, Quot.sound |
| C98 | `rt_copied` | propext, Classical.choice, Quot.sound |
| C98 | `rt_repeatable` | propext, Classical.choice, Quot.sound |
| C98 | `rt_settled` | propext |
| C98 | `c98_example` | propext, Classical.choice, Quot.sound |
| C98 | `c98_no_key` | propext, Classical.choice, Quot.sound |
| C98 | `c98_directory` | propext, Classical.choice, Quot.sound |
| C98 | `c98_directory_again` | propext, Classical.choice, Quot.sound |
| C98 | `c98_files_example` | propext, Classical.choice, Quot.sound |
| C98 | `c98_states` | propext, Classical.choice, Quot.sound |
| C98 | `c98_enforced` | propext, Classical.choice, Quot.sound |
| C98 | `rt_checked` | propext, Classical.choice, Quot.sound |
| C99 | `c99_filters` | propext, Classical.choice, Quot.sound |
| C99 | `c99_directory` | propext, Quot.sound |
| C99 | `c99_unplanned` | propext, Quot.sound |
| C99 | `c99_unplanned_directory` | propext, Quot.sound |
| C99 | `ot_filters` | none |
| C99 | `c99_example` | propext, Classical.choice, Quot.sound |
| C99 | `c99_applied` | propext, Classical.choice, Quot.sound |
| C99 | `c99_files_example` | propext, Classical.choice, Quot.sound |
| C99 | `c99_generated` | propext, Classical.choice, Quot.sound |
| C99 | `c99_misspelt` | propext, Classical.choice, Quot.sound |
| C100 | `c100_strategy` | propext, Classical.choice, Quot.sound |
| C100 | `c100_unique` | propext, Classical.choice, Quot.sound |
| C100 | `c100_example` | propext, Classical.choice, Quot.sound |
| C100 | `c100_conflict` | propext, Classical.choice, Quot.sound |
| C100 | `c100_generated` | propext, Classical.choice, Quot.sound |
| C100 | `c100_generic` | propext, Classical.choice, Quot.sound |
| C101 | `c101_reorder_partial` | propext, Quot.sound |
| C101 | `c101_directory_partial` | propext, Quot.sound |
| C101 | `ro_reordered` | propext |
| C101 | `c101_example` | propext, Classical.choice, Quot.sound |
| C101 | `c101_applied` | propext, Classical.choice, Quot.sound |
| C101 | `c101_same_column` | propext, Classical.choice, Quot.sound |
| C101 | `c101_both_random` | propext, Classical.choice, Quot.sound |
| C101 | `c101_omit` | propext, Classical.choice, Quot.sound |
