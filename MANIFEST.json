{
 "claims": [
  {
   "property": "C01",
   "status": "proved",
   "theorems": [
    "Subsetter.Props.c01_order_one_direction",
    "Subsetter.Props.c01_needs_source_hypothesis"
   ],
   "note": "Also no self reference. The hypothesis that nothing references the source always holds for the planner's synthetic source; the second theorem shows it is needed."
  },
  {
   "property": "C02",
   "status": "proved",
   "theorems": [
    "Subsetter.Props.c02_order_exactly_connected",
    "Subsetter.Props.c02_needs_source_hypothesis"
   ],
   "note": "iff membership/undirected reachability."
  },
  {
   "property": "C03",
   "status": "proved",
   "theorems": [
    "Subsetter.Props.c03_cycle_iff",
    "Subsetter.Props.c03_reported_cycle_real",
    "Subsetter.Props.c03_cycle_may_be_reversed"
   ],
   "note": "The third theorem is a witness that the reported list can run against the references."
  },
  {
   "property": "C04",
   "status": "proved",
   "theorems": [
    "Subsetter.Props.c04_order_independent",
    "Subsetter.Props.c04_failure_independent"
   ],
   "note": "Any source."
  },
  {
   "property": "C05",
   "status": "proved",
   "theorems": [
    "Subsetter.Props.c05_order_no_internal_error",
    "Subsetter.Props.c05_toposort_no_internal_error",
    "Subsetter.Props.c05_reverse_graph",
    "Subsetter.Props.c05_open_graph_key_error"
   ],
   "note": "Loop bounds of the model are proved never to be hit."
  },
  {
   "property": "C06",
   "status": "proved",
   "theorems": [
    "Subsetter.Props.c06_toposort_sorted",
    "Subsetter.Props.c06_toposort_fails_iff_cycle"
   ],
   "note": ""
  },
  {
   "property": "C07",
   "status": "partial",
   "theorems": [
    "Subsetter.Props.c07_referential_integrity_partial",
    "Subsetter.Props.c07_sample_from_source",
    "Subsetter.Props.c07_run_partial",
    "Subsetter.Props.c07_all_amount_breaks_keys"
   ],
   "note": "Holds for every engine, source and configuration except targets that set both all and amount; for those the claim is false (c07_all_amount_breaks_keys)."
  },
  {
   "property": "C08",
   "status": "partial",
   "theorems": [
    "Subsetter.Props.c08_forward_rows",
    "Subsetter.Props.c08_forward_maximal_partial",
    "Subsetter.Props.c08_null_reference_dropped"
   ],
   "note": "Exact row set proved in general. Maximality holds when references are neither NULL nor dangling; rows with a NULL reference are dropped (c08_null_reference_dropped), so maximality is false in general."
  },
  {
   "property": "C09",
   "status": "proved",
   "theorems": [
    "Subsetter.Props.c09_backward_rows",
    "Subsetter.Props.c09_every_table_has_a_reason"
   ],
   "note": "Row list equality: each referenced row as often as in the source."
  },
  {
   "property": "C10",
   "status": "partial",
   "theorems": [
    "Subsetter.Props.c10_union_partial",
    "Subsetter.Props.c10_both_sets_included",
    "Subsetter.Props.c10_without_amount_everything",
    "Subsetter.Props.c10_excess_rows"
   ],
   "note": "Union proved for targets with an amount (or non-positive percent); otherwise the whole table is sampled (c10_without_amount_everything), so the claim is false (c10_excess_rows)."
  },
  {
   "property": "C11",
   "status": "partial",
   "theorems": [
    "Subsetter.Props.c11_all_overrides_partial",
    "Subsetter.Props.c11_targets_planned",
    "Subsetter.Props.c11_amount_not_overridden"
   ],
   "note": "Holds for every option but amount; amount still limits the rows (c11_amount_not_overridden)."
  },
  {
   "property": "C12",
   "status": "partial",
   "theorems": [
    "Subsetter.Props.c12_constraints_partial",
    "Subsetter.Props.c12_target_constraints_ignored"
   ],
   "note": "Holds for tables that are neither target nor passthrough; constraints on targets are ignored (c12_target_constraints_ignored)."
  },
  {
   "property": "C13",
   "status": "proved",
   "theorems": [
    "Subsetter.Props.c13_passthrough"
   ],
   "note": "The failure half is the contrapositive: if planning succeeds every reference of a passthrough table ends in a passthrough table."
  },
  {
   "property": "C14",
   "status": "proved",
   "theorems": [
    "Subsetter.Props.c14_ignored"
   ],
   "note": ""
  },
  {
   "property": "C15",
   "status": "proved",
   "theorems": [
    "Subsetter.Props.c15_rewritten_keys",
    "Subsetter.Props.c15_ignore_extra",
    "Subsetter.Props.c15_fails_only_on_bad_names"
   ],
   "note": ""
  },
  {
   "property": "C16",
   "status": "partial",
   "theorems": [
    "Subsetter.Props.c16_open_reference_fails",
    "Subsetter.Props.c16_key_error",
    "Subsetter.Props.c16_closed_selection_partial"
   ],
   "note": "False in general: any reference to an unloaded table that is not ignored raises KeyError. Proved when the keys in use stay within the loaded tables."
  },
  {
   "property": "C17",
   "status": "proved",
   "theorems": [
    "Subsetter.Props.c17_inference_exact"
   ],
   "note": ""
  },
  {
   "property": "C18",
   "status": "proved",
   "theorems": [
    "Subsetter.Props.c18_selection_closure"
   ],
   "note": "Assumes the database is closed under references and schema names contain no dot."
  },
  {
   "property": "C19",
   "status": "proved",
   "theorems": [
    "Subsetter.Props.c19_no_internal_error",
    "Subsetter.Props.c19_errors_documented",
    "Subsetter.Props.c19_empty_target_name_accepted"
   ],
   "note": "Every error comes with its cause. Assumes no target has the empty name; c19_empty_target_name_accepted shows what happens otherwise."
  },
  {
   "property": "C20",
   "status": "partial",
   "theorems": [
    "Subsetter.Props.c20_condition_simplify_same_partial",
    "Subsetter.Props.c20_condition_simplify_total",
    "Subsetter.Props.c20_condition_simplify_smaller",
    "Subsetter.Props.c20_subquery_counterexample"
   ],
   "note": "Proved for conditions whose subqueries contain no union that merging would change; false otherwise (counterexample proved): merging a union drops joins. Termination is unconditional. `random() < x` is taken to be false for x <= 0 and true for x >= 1, which holds where random() is in [0, 1); see C70 for SQLite."
  },
  {
   "property": "C21",
   "status": "partial",
   "theorems": [
    "Subsetter.Props.c21_statement_simplify_same_rows_partial",
    "Subsetter.Props.c21_select_simplify_same_list_partial",
    "Subsetter.Props.c21_statement_simplify_total",
    "Subsetter.Props.c21_union_merge_drops_joins",
    "Subsetter.Props.c21_union_merge_keeps_duplicates",
    "Subsetter.Props.c21_empty_union_fails"
   ],
   "note": "Proved for unions where merging loses no joins; the unrestricted claim is false (counterexample proved): SQLStatementUnion.simplify drops joins. `random() < x` is taken to be false for x <= 0 and true for x >= 1, which holds where random() is in [0, 1); see C70 for SQLite."
  },
  {
   "property": "C22",
   "status": "proved",
   "theorems": [
    "Subsetter.Props.c22_join_rows",
    "Subsetter.Props.c22_half_unique_irrelevant",
    "Subsetter.Props.c22_needs_primary_key"
   ],
   "note": "Equality of row lists for both strategies."
  },
  {
   "property": "C23",
   "status": "proved",
   "theorems": [
    "Subsetter.Props.c23_materialisation_order",
    "Subsetter.Props.c23_cycle_reported",
    "Subsetter.Props.c23_execution_is_sample",
    "Subsetter.Props.c23_listing_order_irrelevant"
   ],
   "note": "All sensible plans (names parse, references known, used samples planned); row numbering for compaction is modelled separately."
  },
  {
   "property": "C24",
   "status": "partial",
   "theorems": [
    "Subsetter.Props.c24_no_copy_twice",
    "Subsetter.Props.c24_references_resolve_partial",
    "Subsetter.Props.c24_copy_missing",
    "Subsetter.Props.c24_own_copy_twice"
   ],
   "note": "All references resolve and no copy is used twice if no foreign key involves two compacted columns and no table refers to a compacted column of its own. Otherwise false: copies are counted per foreign key but used per column (KeyError), and a self reference reads the copy the rows come from."
  },
  {
   "property": "C25",
   "status": "proved",
   "theorems": [
    "Subsetter.Props.c25_names_distinct",
    "Subsetter.Props.c25_names_prefixed"
   ],
   "note": "Every list of materialised tables."
  },
  {
   "property": "C26",
   "status": "proved",
   "theorems": [
    "Subsetter.Props.c26_column_injective",
    "Subsetter.Props.c26_null",
    "Subsetter.Props.c26_primary_keys_distinct"
   ],
   "note": ""
  },
  {
   "property": "C27",
   "status": "partial",
   "theorems": [
    "Subsetter.Props.c27_children_multiplied_partial",
    "Subsetter.Props.c27_references_kept_partial",
    "Subsetter.Props.c27_same_copy",
    "Subsetter.Props.c27_renamed_column_not_multiplied",
    "Subsetter.Props.c27_key_into_passthrough_multiplied"
   ],
   "note": "False of the code when key columns are named differently in the two tables or refer into tables that are not multiplied; proved otherwise."
  },
  {
   "property": "C28",
   "status": "proved",
   "theorems": [
    "Subsetter.Props.c28_terminates",
    "Subsetter.Props.c28_exact",
    "Subsetter.Props.c28_passthrough_rejected",
    "Subsetter.Props.c28_no_multiplier"
   ],
   "note": ""
  },
  {
   "property": "C29",
   "status": "proved",
   "theorems": [
    "Subsetter.Props.c29_above_existing",
    "Subsetter.Props.c29_keys_unique",
    "Subsetter.Props.c29_distinct",
    "Subsetter.Props.c29_unshifted",
    "Subsetter.Props.c29_readme_differs",
    "Subsetter.Props.c29_negative_collides"
   ],
   "note": "For keys of the source that are not negative, as the property says. For a primary key that is also a foreign key the destination must respect that foreign key."
  },
  {
   "property": "C30",
   "status": "partial",
   "theorems": [
    "Subsetter.Props.c30_same_shift",
    "Subsetter.Props.c30_reference_kept_partial",
    "Subsetter.Props.c30_copies_kept_partial",
    "Subsetter.Props.c30_passthrough_kept_partial",
    "Subsetter.Props.c30_chain_broken",
    "Subsetter.Props.c30_passthrough_key_broken",
    "Subsetter.Props.c30_passthrough_child_broken",
    "Subsetter.Props.c30_composite_broken",
    "Subsetter.Props.c30_unknown_parent_fails"
   ],
   "note": "False in general: four kinds of schemas break references. Proved for single column references to a key that is not itself a reference to a merged table, and for references into passthrough tables by columns that are not the key."
  },
  {
   "property": "C31",
   "status": "proved",
   "theorems": [
    "Subsetter.Props.c31_ids_fill",
    "Subsetter.Props.c31_order",
    "Subsetter.Props.c31_written"
   ],
   "note": "Identifiers are a permutation of the interval in the order of the primary key, and these are the values written to compacted columns."
  },
  {
   "property": "C32",
   "status": "partial",
   "theorems": [
    "Subsetter.Props.c32_run_partial",
    "Subsetter.Props.c32_reference_kept_partial",
    "Subsetter.Props.c32_planned_run_partial",
    "Subsetter.Props.c32_planned_references_partial",
    "Subsetter.Props.c32_columns",
    "Subsetter.Props.c32_named_column_breaks_reference",
    "Subsetter.Props.c32_chain_not_followed",
    "Subsetter.Props.c32_duplicates_rows",
    "Subsetter.Props.c32_dangling_reference_lost",
    "Subsetter.Props.c32_two_keys_one_column"
   ],
   "note": "One output row per sampled row and references preserved in both directions if the columns looked up hold unique values (always so for compacted primary keys of a planned run: c32_planned_run_partial) and compaction treats both columns of each pair alike. False for chains of keys, for columns configured by name that are part of a foreign key, for referenced columns with duplicates and for columns with two foreign keys."
  },
  {
   "property": "C33",
   "status": "proved",
   "theorems": [
    "Subsetter.Props.c33_written_once_in_order",
    "Subsetter.Props.c33_failure_keeps_prefix"
   ],
   "note": "Batches concatenate to the copies in order, by index; also for failing runs (prefix)."
  },
  {
   "property": "C34",
   "status": "proved",
   "theorems": [
    "Subsetter.Props.c34_error",
    "Subsetter.Props.c34_skip",
    "Subsetter.Props.c34_replace",
    "Subsetter.Props.c34_no_primary_key",
    "Subsetter.Props.c34_other_dialects",
    "Subsetter.Props.c34_key_column_omitted",
    "Subsetter.Props.c34_sqlite_resets_unwritten",
    "Subsetter.Props.c34_sqlite_generated_column"
   ],
   "note": "Per strategy, all tables and batches. Conflicts on the primary key only; other unique constraints are not modelled. Witnesses: SQLite resets unwritten columns and fails for generated columns; an omitted key column is a KeyError."
  },
  {
   "property": "C35",
   "status": "proved",
   "theorems": [
    "Subsetter.Props.c35_rerun_converges",
    "Subsetter.Props.c35_rerun_error",
    "Subsetter.Props.c35_other_random_values"
   ],
   "note": "Same values from the outside world in both runs (the witness shows that is needed); merge mode is C29."
  },
  {
   "property": "C36",
   "status": "partial",
   "theorems": [
    "Subsetter.Props.c36_truncation",
    "Subsetter.Props.c36_emptied",
    "Subsetter.Props.c36_insertion_partial",
    "Subsetter.Props.c36_insertion_error",
    "Subsetter.Props.c36_skip_dangles"
   ],
   "note": "Truncation: every committed state is free of dangling references, with or without create. Insertion: every committed state of a complete or failed run is free of dangling references if the rows written refer to existing rows or to rows of tables written; with skip/replace additionally if referenced columns belong to the primary key (witness otherwise). ON DELETE actions are not modelled; a destination that checks constraints at every insert is the subject of C83."
  },
  {
   "property": "C37",
   "status": "proved",
   "theorems": [
    "Subsetter.Props.c37_no_merge",
    "Subsetter.Props.c37_refused"
   ],
   "note": "re.sub chain is an arbitrary function; also characterises every refusal."
  },
  {
   "property": "C38",
   "status": "proved",
   "theorems": [
    "Subsetter.Props.c38_split_join",
    "Subsetter.Props.c38_splits_iff_dot",
    "Subsetter.Props.c38_join_split",
    "Subsetter.Props.c38_names_differ",
    "Subsetter.Props.c38_dot_in_schema"
   ],
   "note": "Full, with the collision for schemas containing a dot."
  },
  {
   "property": "C39",
   "status": "partial",
   "theorems": [
    "Subsetter.Props.c39_order",
    "Subsetter.Props.c39_create_writes_all",
    "Subsetter.Props.c39_existing_written_partial",
    "Subsetter.Props.c39_order_exists",
    "Subsetter.Props.c39_copied",
    "Subsetter.Props.c39_missing_skipped",
    "Subsetter.Props.c39_self_reference_fails"
   ],
   "note": "With create every planned table is written exactly once, referenced tables first. Without create tables missing in the destination are skipped silently (witness), and any cycle among destination tables prevents sampling (witness)."
  },
  {
   "property": "C40",
   "status": "proved",
   "theorems": [
    "Subsetter.Props.c40_unnamed_columns_kept",
    "Subsetter.Props.c40_columns_out"
   ],
   "note": "Every chain of filters, generators and plugins arbitrary; column names of a result set are distinct."
  },
  {
   "property": "C41",
   "status": "partial",
   "theorems": [
    "Subsetter.Props.c41_rejected_partial",
    "Subsetter.Props.c41_accepted",
    "Subsetter.Props.c41_omit_unchecked"
   ],
   "note": "False for omit filters, whose columns are not checked; proved for all others."
  },
  {
   "property": "C42",
   "status": "proved",
   "theorems": [
    "Subsetter.Props.c42_scrubbed",
    "Subsetter.Props.c42_scrubbing",
    "Subsetter.Props.c42_readers_leak"
   ],
   "note": "Equality of output, errors and generator state."
  },
  {
   "property": "C43",
   "status": "proved",
   "theorems": [
    "Subsetter.Props.c43_first_match",
    "Subsetter.Props.c43_no_omit"
   ],
   "note": ""
  },
  {
   "property": "C44",
   "status": "proved",
   "theorems": [
    "Subsetter.Props.c44_merge_at",
    "Subsetter.Props.c44_repeat",
    "Subsetter.Props.c44_idempotent",
    "Subsetter.Props.c44_single_file",
    "Subsetter.Props.c44_last_mention_wins",
    "Subsetter.Props.c44_empty_file_discards",
    "Subsetter.Props.c44_lists_replaced"
   ],
   "note": "for documents whose mappings have distinct keys (every loaded YAML document); the witnesses show what a later file without content does"
  },
  {
   "property": "C45",
   "status": "proved",
   "theorems": [
    "Subsetter.Props.c45_search"
   ],
   "note": "objects are a finite heap of models, lists and dicts with references by id; sharing and cycles allowed"
  },
  {
   "property": "C46",
   "status": "partial",
   "theorems": [
    "Subsetter.Props.c46_next_ahead",
    "Subsetter.Props.c46_not_backwards_partial",
    "Subsetter.Props.c46_moves_backwards",
    "Subsetter.Props.c46_failure_leaves_behind"
   ],
   "note": "Next identifier is ahead of everything written; the sequence can move backwards because currval is local to a session (witness), and is not updated if writing fails."
  },
  {
   "property": "C47",
   "status": "partial",
   "theorems": [
    "Subsetter.Props.c47_precedence",
    "Subsetter.Props.c47_environment_unused",
    "Subsetter.Props.c47_consistent_partial",
    "Subsetter.Props.c47_environment_dialect",
    "Subsetter.Props.c47_empty_variables"
   ],
   "note": "precedence of URL parameters proved; SSL and session settings use the configured dialect and fit the URL unless only the environment names the dialect"
  },
  {
   "property": "C48",
   "status": "partial",
   "theorems": [
    "Subsetter.Props.c48_earlier_tables",
    "Subsetter.Props.c48_growing_source_partial",
    "Subsetter.Props.c48_constant_source",
    "Subsetter.Props.c48_deleted_rows",
    "Subsetter.Props.c48_fails",
    "Subsetter.Props.c48_added_rows_passthrough",
    "Subsetter.Props.c48_added_rows_all"
   ],
   "note": "False in general (c48_fails: rows deleted between statements). Proved: references to tables listed earlier always hold; references hold when referenced values are never removed and the parent is selected by its references; a constant source gives the run of C07. Counterexamples also for added rows with passthrough parents and unlimited targets."
  },
  {
   "property": "C49",
   "status": "proved",
   "theorems": [
    "Subsetter.Props.c49_round_trip",
    "Subsetter.Props.c49_same_execution",
    "Subsetter.Props.c49_planner",
    "Subsetter.Props.c49_reader_total",
    "Subsetter.Props.c49_aliases_needed"
   ],
   "note": "Writing as a relation that leaves open the order of keys and which default-valued fields are written. YAML text, lax coercions and sql_params are not modelled."
  },
  {
   "property": "C50",
   "status": "proved",
   "theorems": [
    "Subsetter.Props.c50_one_line_per_copy"
   ],
   "note": "JSON encoding of a line is not modelled."
  },
  {
   "property": "C51",
   "status": "proved",
   "theorems": [
    "Subsetter.Props.c51_index_names_distinct"
   ],
   "note": ""
  },
  {
   "property": "C52",
   "status": "partial",
   "theorems": [
    "Subsetter.Props.c52_case_insensitive_partial",
    "Subsetter.Props.c52_case_collision"
   ],
   "note": "False of the code: numbering is per exact name. Proved for names that differ case-insensitively only in ways the theorem states."
  },
  {
   "property": "C53",
   "status": "partial",
   "theorems": [
    "Subsetter.Props.c53_half_unique_partial",
    "Subsetter.Props.c53_key_marked",
    "Subsetter.Props.c53_no_primary_key"
   ],
   "note": "False for tables without primary key; proved when both tables have one."
  },
  {
   "property": "C54",
   "status": "partial",
   "theorems": [
    "Subsetter.Props.c54_zero_partial",
    "Subsetter.Props.c54_boolean_becomes_int"
   ],
   "note": "False for booleans, which become the integer 0."
  },
  {
   "property": "C55",
   "status": "proved",
   "theorems": [
    "Subsetter.Props.c55_created_mirror_source",
    "Subsetter.Props.c55_unplanned_reference_fails"
   ],
   "note": "Types, defaults, generated columns, check constraints and indexes are not modelled."
  },
  {
   "property": "C56",
   "status": "proved",
   "theorems": [
    "Subsetter.Props.c56_not_more_often",
    "Subsetter.Props.c56_constraints_hold",
    "Subsetter.Props.c56_equal_rows_dropped"
   ],
   "note": "Holds for all plans of the planner. The converse does not: UNION drops equal rows of a table without a primary key (c56_equal_rows_dropped)."
  },
  {
   "property": "C57",
   "status": "partial",
   "theorems": [
    "Subsetter.Props.c57_secured_partial",
    "Subsetter.Props.c57_files",
    "Subsetter.Props.c57_not_asked",
    "Subsetter.Props.c57_verify_without_require",
    "Subsetter.Props.c57_words_unchecked"
   ],
   "note": "proved where encryption is asked for; verification asked for without it is ignored"
  },
  {
   "property": "C58",
   "status": "proved",
   "theorems": [
    "Subsetter.Props.c58_exactly_the_sample",
    "Subsetter.Props.c58_all_copied"
   ],
   "note": "With a strategy other than error the sampled rows must differ in the destination's primary key. landed: columns the destination generates or that are not sent are filled by the destination."
  },
  {
   "property": "C59",
   "status": "proved",
   "theorems": [
    "Subsetter.Props.c59_create_and_fill",
    "Subsetter.Props.c59_runnable",
    "Subsetter.Props.c59_succeeds",
    "Subsetter.Props.ax_create"
   ],
   "note": "For databases whose dialect has an upsert, or strategy error; names of planned tables match themselves as patterns; on PostgreSQL integral primary keys hold integers. Circles need only be excluded among tables passed through."
  },
  {
   "property": "C60",
   "status": "partial",
   "theorems": [
    "Subsetter.Props.c60_always_intact_partial",
    "Subsetter.Props.c60_created_partial",
    "Subsetter.Props.ix_always_intact",
    "Subsetter.Props.c60_multiplied_dangling"
   ],
   "note": "False in general: filters on key columns, targets with all and amount, and skip with references outside of primary keys break references (C07, C36), as do some settings for multiplicity, merging and compaction, which C74 covers; proved for everything else, and with conditions on the source alone for tables created by the run."
  },
  {
   "property": "C61",
   "status": "proved",
   "theorems": [
    "Subsetter.Props.c61_run",
    "Subsetter.Props.c61_added",
    "Subsetter.Props.c61_error"
   ],
   "note": "c61_run is for every strategy, c61_error states the rows left with strategy error or without a primary key."
  },
  {
   "property": "C62",
   "status": "proved",
   "theorems": [
    "Subsetter.Props.c62_prefix",
    "Subsetter.Props.c62_any_time"
   ],
   "note": "Includes failures before the first table is copied: nothing was written, and the tables are as before or as truncation left them. c62_any_time says the same of every committed state of every run."
  },
  {
   "property": "C63",
   "status": "partial",
   "theorems": [
    "Subsetter.Props.c63_early_partial",
    "Subsetter.Props.c63_filters",
    "Subsetter.Props.c63_compact_late",
    "Subsetter.Props.c63_compact_name_late",
    "Subsetter.Props.c63_plan_late",
    "Subsetter.Props.c63_columns_late",
    "Subsetter.Props.c63_merge_late"
   ],
   "note": "False for compaction, circular plans, missing columns and missing tables when merging: these are noticed after truncation. The counterexamples are proved."
  },
  {
   "property": "C64",
   "status": "proved",
   "theorems": [
    "Subsetter.Props.c64_closed",
    "Subsetter.Props.c64_circles",
    "Subsetter.Props.px_closed",
    "Subsetter.Props.c64_ignored_missing",
    "Subsetter.Props.c64_circle_passed"
   ],
   "note": "Both exceptions occur: c64_ignored_missing, c64_circle_passed."
  },
  {
   "property": "C65",
   "status": "proved",
   "theorems": [
    "Subsetter.Props.c65_two_commands",
    "Subsetter.Props.c65_two_commands_create",
    "Subsetter.Props.c65_sections",
    "Subsetter.Props.bx_subset",
    "Subsetter.Props.bx_sample",
    "Subsetter.Props.c65_no_sampler"
   ],
   "note": "Existing tables: if neither run fails. Created tables: under the conditions of C59 both succeed."
  },
  {
   "property": "C66",
   "status": "proved",
   "theorems": [
    "Subsetter.Props.c66_files",
    "Subsetter.Props.c66_failed",
    "Subsetter.Props.c66_plain",
    "Subsetter.Props.c66_planned"
   ],
   "note": "Names of planned tables match themselves as patterns. Values can be written as JSON and the directory can be written; both are outside of the model."
  },
  {
   "property": "C67",
   "status": "proved",
   "theorems": [
    "Subsetter.Props.c67_unclosed",
    "Subsetter.Props.c67_language",
    "Subsetter.Props.c67_literal",
    "Subsetter.Props.c67_self",
    "Subsetter.Props.c67_brackets",
    "Subsetter.Props.c67_not_found",
    "Subsetter.Props.c67_planned",
    "Subsetter.Props.c67_brackets_lost"
   ],
   "note": "Python's fnmatch on POSIX is modelled from its source (translation to a regular expression and matching it); names whose brackets are not closed are found, names with a closed bracket group are proved lost."
  },
  {
   "property": "C68",
   "status": "partial",
   "theorems": [
    "Subsetter.Props.c68_meaning",
    "Subsetter.Props.c68_null",
    "Subsetter.Props.c68_opposite",
    "Subsetter.Props.c68_fails_partial",
    "Subsetter.Props.c68_null_fails",
    "Subsetter.Props.c68_first",
    "Subsetter.Props.c68_surprises",
    "Subsetter.Props.c68_late"
   ],
   "note": "Conditions that suit no value are not rejected beforehand (c68_late); NaN and order among values of other types are outside of the model."
  },
  {
   "property": "C69",
   "status": "partial",
   "theorems": [
    "Subsetter.Props.c69_values",
    "Subsetter.Props.c69_never_fails_partial",
    "Subsetter.Props.c69_empty_range",
    "Subsetter.Props.c69_destination",
    "Subsetter.Props.c69_any_time",
    "Subsetter.Props.rm_any_time",
    "Subsetter.Props.rm_run",
    "Subsetter.Props.c69_multiplied",
    "Subsetter.Props.c69_shifted"
   ],
   "note": "Values after a run and at any time are proved, also for merged and multiplied rows unless the filter writes integers into key columns or columns listed as to be multiplied, for which it is false (c69_multiplied, c69_shifted); that accepted filters get every row through is false for an empty range. Nothing is said of float, uuid and Faker values."
  },
  {
   "property": "C70",
   "status": "partial",
   "theorems": [
    "Subsetter.Props.c70_target_rows",
    "Subsetter.Props.c70_thresholds",
    "Subsetter.Props.c70_percent_total",
    "Subsetter.Props.c70_percent_partial",
    "Subsetter.Props.c70_amount",
    "Subsetter.Props.c70_amount_fair",
    "Subsetter.Props.c70_sqlite",
    "Subsetter.Props.c70_eligible"
   ],
   "note": "Average over all outcomes of the draws, with the options sql, like and in of the same target taken into account; false on SQLite (c70_sqlite)."
  },
  {
   "property": "C71",
   "status": "partial",
   "theorems": [
    "Subsetter.Props.c71_config",
    "Subsetter.Props.c71_unique",
    "Subsetter.Props.c71_misspelt_partial",
    "Subsetter.Props.c71_only",
    "Subsetter.Props.c71_planner",
    "Subsetter.Props.c71_plan",
    "Subsetter.Props.c71_misspelt_ignored",
    "Subsetter.Props.c71_filter",
    "Subsetter.Props.c71_random_uuid",
    "Subsetter.Props.c71_reference_refused"
   ],
   "note": "Full for what is accepted and what it says; refusal of unknown options holds for the strict sections (c71_misspelt_partial) and is false elsewhere (c71_misspelt_ignored). Conversions of scalars of another type (pydantic's lax mode) are a parameter; a list as value of a constraint, negative amounts and null for sqlite_databases are treated as stated in the model. The reference file itself is not accepted: it uses a filter `random_uuid` and a `random_string` without columns (c71_reference_refused)."
  },
  {
   "property": "C72",
   "status": "partial",
   "theorems": [
    "Subsetter.Props.c72_indexes",
    "Subsetter.Props.c72_foreign_keys_partial",
    "Subsetter.Props.c72_same_names",
    "Subsetter.Props.c72_long_names",
    "Subsetter.Props.c72_joined_schemas",
    "Subsetter.Props.c72_beside_source"
   ],
   "note": "Index names: full. Names of foreign keys: proved unless tables of different schemas are created in one; false otherwise and beside the source (witnesses). Names the destination has already are not modelled apart from the witness; limits on lengths are the databases'."
  },
  {
   "property": "C73",
   "status": "partial",
   "theorems": [
    "Subsetter.Props.c73_subset",
    "Subsetter.Props.c73_directory",
    "Subsetter.Props.c73_two_commands",
    "Subsetter.Props.c73_refused",
    "Subsetter.Props.c73_done",
    "Subsetter.Props.c73_intact_partial",
    "Subsetter.Props.c73_follow_partial",
    "Subsetter.Props.c73_enforced",
    "Subsetter.Props.zx_subset",
    "Subsetter.Props.zx_two",
    "Subsetter.Props.zx_compact"
   ],
   "note": "Everything but the part about foreign keys is proved as stated. c73_follow_partial covers compaction and multiplicity under the conditions of C74, c73_enforced a destination that checks foreign keys and unique constraints itself (C83). Merging is C91 (c91_command). Left out are targets with all and amount, and the cases of compaction and multiplicity for which it is false (C07, C27, C30, C32)."
  },
  {
   "property": "C74",
   "status": "partial",
   "theorems": [
    "Subsetter.Props.c74_always_intact_partial",
    "Subsetter.Props.c74_created_partial",
    "Subsetter.Props.c74_same_names",
    "Subsetter.Props.wx_always_intact",
    "Subsetter.Props.wx_result",
    "Subsetter.Props.c60_multiplied_dangling",
    "Subsetter.Props.c74_inferred_partial"
   ],
   "note": "Proved for every configuration that treats columns as those they refer to (IdsFollow: no column refers to two columns, no column referred to is part of a foreign key, columns compacted by name that are referred to are primary keys, columns are multiplied if and only if those they refer to are, merged tables refer by single columns to integer keys). False otherwise (C27, C30, C32); inferred foreign keys are covered if no tables are created; what C60 misses is not covered."
  },
  {
   "property": "C75",
   "status": "partial",
   "theorems": [
    "Subsetter.Props.c75_statement_partial",
    "Subsetter.Props.c75_run_partial",
    "Subsetter.Props.c75_planned_run",
    "Subsetter.Props.c75_create_and_fill",
    "Subsetter.Props.tx_planned",
    "Subsetter.Props.tx_result",
    "Subsetter.Props.c75_misspelt_column",
    "Subsetter.Props.c75_raw_sql_error",
    "Subsetter.Props.c75_lookup_numbers_twice",
    "Subsetter.Props.tx_statement"
   ],
   "note": "For plans of the planner the run with the statements built equals the run of the model, under conditions on source and configuration only. Missing: misspelt target columns and raw SQL, for which the claim is false (witnesses), values compacted by name that occur twice (witness), and in arbitrary plans selects that both join and draw random numbers or limit a projection."
  },
  {
   "property": "C76",
   "status": "proved",
   "theorems": [
    "Subsetter.Props.c76_no_trace",
    "Subsetter.Props.c76_no_trace_in_files",
    "Subsetter.Props.c76_no_trace_sql",
    "Subsetter.Props.c76_target_tells",
    "Subsetter.Props.c76_keyless_tells",
    "Subsetter.Props.c76_unfiltered_tells"
   ],
   "note": "Proved for runs into a database, for runs into a directory and for the SQL that is built, under the stated hypotheses (every hidden column scrubbed; not part of keys, foreign keys, constraints, targets; tables with hidden columns have a primary key; random order and raw SQL of targets do not look at hidden values). The witnesses show that the conditions on targets, primary keys and filters are needed."
  },
  {
   "property": "C77",
   "status": "proved",
   "theorems": [
    "Subsetter.Props.c77_fresh",
    "Subsetter.Props.c77_again",
    "Subsetter.Props.c77_merge_adds_again",
    "Subsetter.Props.c77_conflict"
   ],
   "note": "Every configuration with truncate; without it the claim is false (witnesses). Rerunning (c77_again) is stated for the schema of the first run, so for create it speaks of a destination where the tables were dropped again; ON DELETE actions and sequences are not part of the run model."
  },
  {
   "property": "C78",
   "status": "proved",
   "theorems": [
    "Subsetter.Props.c78_no_conflict",
    "Subsetter.Props.c78_empty_tables",
    "Subsetter.Props.wx_no_conflict",
    "Subsetter.Props.wx_exempt",
    "Subsetter.Props.wx_below"
   ],
   "note": "Violations of primary keys as the flush model reports them (IntegrityError); unique constraints other than the primary key and foreign keys of the destination are not enforced by the model of a flush (C74 shows references hold). Compaction needs the conditions of C74 on foreign keys (LookupsFollow), and C.infer = none."
  },
  {
   "property": "C79",
   "status": "proved",
   "theorems": [
    "Subsetter.Props.c79_succeeds",
    "Subsetter.Props.c79_create_filtered",
    "Subsetter.Props.wx_works",
    "Subsetter.Props.ax_create_filtered",
    "Subsetter.Props.wx_text_key",
    "Subsetter.Props.wx_omitted_key",
    "Subsetter.Props.wx_no_column",
    "Subsetter.Props.wx_blocked"
   ],
   "note": "err = none for runs with any combination of filters, compaction, multiplication and merging, under conditions stated in Spec/RunWorks.lean; negative witnesses show that dropping conditions makes runs fail"
  },
  {
   "property": "C80",
   "status": "partial",
   "theorems": [
    "Subsetter.Props.c80_same_ids_partial",
    "Subsetter.Props.c80_follow_partial",
    "Subsetter.Props.c80_inferred_partial",
    "Subsetter.Props.c80_planner_inference_broken",
    "Subsetter.Props.c80_extra_key_broken"
   ],
   "note": "Without compaction, multiplication and merging for all keys the planner used; with them for keys declared in the source or inferred by the run, under IdsFollow. Keys only the planner knows are refuted. Excluded as in C60: targets with all and amount, and replaced rows referred to outside of primary keys."
  },
  {
   "property": "C81",
   "status": "proved",
   "theorems": [
    "Subsetter.Props.c81_run",
    "Subsetter.Props.c81_exists",
    "Subsetter.Props.c81_directory",
    "Subsetter.Props.c81_plan",
    "Subsetter.Props.c81_dependencies_not_inferred",
    "Subsetter.Props.c81_created_without_inferred"
   ],
   "note": "Equality of whole results; the two restrictions are shown to be needed."
  },
  {
   "property": "C82",
   "status": "proved",
   "theorems": [
    "Subsetter.Props.c82_unique",
    "Subsetter.Props.c82_not_null",
    "Subsetter.Props.c82_created",
    "Subsetter.Props.wx_unique",
    "Subsetter.Props.wx_not_null",
    "Subsetter.Props.wu_created",
    "Subsetter.Props.wu_constraint",
    "Subsetter.Props.wu_multiplied",
    "Subsetter.Props.wu_filtered",
    "Subsetter.Props.wu_merged"
   ],
   "note": "The conditions are StaysUnique and StaysFilled of Spec/Unique.lean; wu_multiplied, wu_filtered and wu_merged show that they are needed. Lookups of compacted references must be unambiguous (LookupsFollow)."
  },
  {
   "property": "C83",
   "status": "proved",
   "theorems": [
    "Subsetter.Props.c83_accepts",
    "Subsetter.Props.c83_either",
    "Subsetter.Props.c83_never_violated",
    "Subsetter.Props.c83_enforced",
    "Subsetter.Props.c83_created",
    "Subsetter.Props.checkDb_iff",
    "Subsetter.Props.wx_enforced",
    "Subsetter.Props.wu_rejected",
    "Subsetter.Props.wu_taken",
    "Subsetter.Props.rx_dangling"
   ],
   "note": "The destination checks an arbitrary predicate on its contents after each deleted table and each inserted row (sampleChecked). c83_accepts compares with the run that commits every row; c83_enforced and c83_created take the conditions of C74 and C82. Constraints deferred to commit are weaker and accept whatever these accept. wu_rejected, wu_taken and rx_dangling show runs that such a destination stops."
  },
  {
   "property": "C84",
   "status": "proved",
   "theorems": [
    "Subsetter.Props.c84_success",
    "Subsetter.Props.c84_same",
    "Subsetter.Props.c84_states",
    "Subsetter.Props.c84_failed_differ",
    "Subsetter.Props.bf_same"
   ],
   "note": "Proved as stated; c84_failed_differ is a witness for the last sentence."
  },
  {
   "property": "C85",
   "status": "partial",
   "theorems": [
    "Subsetter.Props.c85_same_rows",
    "Subsetter.Props.c85_ahead_partial",
    "Subsetter.Props.c85_created",
    "Subsetter.Props.c85_merged",
    "Subsetter.Props.c85_others",
    "Subsetter.Props.c85_falls_back",
    "Subsetter.Props.c85_failed_behind",
    "Subsetter.Props.sq_merged"
   ],
   "note": "The claim for arbitrary destinations is false: with rows kept and no `currval` in the session the sequence falls back (c85_falls_back), and a failed run leaves it behind (c85_failed_behind). Proved for created, emptied and merged tables and for sessions that know the last value. Values the destination itself takes from a sequence, when the key column is omitted, are not modelled."
  },
  {
   "property": "C86",
   "status": "partial",
   "theorems": [
    "Subsetter.Props.c86_plan_status",
    "Subsetter.Props.c86_plan_done",
    "Subsetter.Props.c86_no_plan",
    "Subsetter.Props.c86_leaves_files",
    "Subsetter.Props.c86_failed_partial",
    "Subsetter.Props.c86_unreadable",
    "Subsetter.Props.c86_subset",
    "Subsetter.Props.c86_sample",
    "Subsetter.Props.c86_no_plan_file",
    "Subsetter.Props.c86_default_config",
    "Subsetter.Props.c86_stdin_both",
    "Subsetter.Props.c86_stdin_twice",
    "Subsetter.Props.c86_stdin_last",
    "Subsetter.Props.c86_file_seen",
    "Subsetter.Props.c86_pipe_seen",
    "Subsetter.Props.c86_two_commands",
    "Subsetter.Props.c86_verbose",
    "Subsetter.Props.c86_quiet",
    "Subsetter.Props.c86_dash",
    "Subsetter.Props.c86_defaults",
    "Subsetter.Props.c86_broken",
    "Subsetter.Props.sh_two"
   ],
   "note": "all but what is false of the code: a failing `plan` leaves all files unless writing breaks off (c86_failed_partial, c86_broken); the defaults of `plan` and `sample` do not fit together (c86_defaults), nor does `-` (c86_dash), nor -vvv (c86_verbose)"
  },
  {
   "property": "C87",
   "status": "proved",
   "theorems": [
    "Subsetter.Props.c87_respected",
    "Subsetter.Props.c87_untouched",
    "Subsetter.Props.c87_skip",
    "Subsetter.Props.c87_accepted",
    "Subsetter.Props.c87_fresh",
    "Subsetter.Props.c87_same",
    "Subsetter.Props.c87_created",
    "Subsetter.Props.c87_skip_drops",
    "Subsetter.Props.c87_replace_other",
    "Subsetter.Props.cu_respects",
    "Subsetter.Props.cu_replaced",
    "Subsetter.Props.cu_skipped",
    "Subsetter.Props.wu_same",
    "Subsetter.Props.wu_lost",
    "Subsetter.Props.wu_replaced"
   ],
   "note": "The meaning of the statements that the three dialects build is that of the databases, see Model/Conflicts.lean. That `skip` looks at primary keys only and that `replace` writes the sampled row are false (`c87_skip_drops`, `c87_replace_other`, at run level `wu_lost`, `wu_replaced`)."
  },
  {
   "property": "C88",
   "status": "proved",
   "theorems": [
    "Subsetter.Props.c88_planned",
    "Subsetter.Props.c88_needed",
    "Subsetter.Props.c88_enough",
    "Subsetter.Props.c88_iff",
    "Subsetter.Props.c88_database",
    "Subsetter.Props.c88_documented",
    "Subsetter.Props.c88_example",
    "Subsetter.Props.c88_far_circle",
    "Subsetter.Props.c88_against"
   ],
   "note": "exact for configurations without table constraints; with constraints the two directions are `c88_needed` and `c88_enough`"
  },
  {
   "property": "C89",
   "status": "proved",
   "theorems": [
    "Subsetter.Props.c89_same_plan",
    "Subsetter.Props.c89_same_failure",
    "Subsetter.Props.c89_meaning",
    "Subsetter.Props.c89_database",
    "Subsetter.Props.c89_example",
    "Subsetter.Props.c89_example_applies"
   ],
   "note": "For loaded tables and from a database whose foreign keys refer to tables of the database. Orders of ignore_fks, extra_fks and constraints of one table are taken as written. Which of several errors is reported may depend on the order."
  },
  {
   "property": "C90",
   "status": "partial",
   "theorems": [
    "Subsetter.Props.c90_loosened_partial",
    "Subsetter.Props.c90_same_tables",
    "Subsetter.Props.c90_more",
    "Subsetter.Props.c90_unaffected",
    "Subsetter.Props.c90_grown_source",
    "Subsetter.Props.c90_example_applies",
    "Subsetter.Props.c90_example_before",
    "Subsetter.Props.c90_example_after",
    "Subsetter.Props.c90_limit_added",
    "Subsetter.Props.c90_target_added",
    "Subsetter.Props.c90_all_added"
   ],
   "note": "Proved for changes of options and constraints with the same target names, if a target without limit stays without one and `all` comes without an amount. Missing, since false: a limit added to a referenced target, a further target, and `all` added beside an amount can each lose rows; witnesses are proved."
  },
  {
   "property": "C91",
   "status": "proved",
   "theorems": [
    "Subsetter.Props.c91_merge",
    "Subsetter.Props.c91_sound",
    "Subsetter.Props.c91_repeated",
    "Subsetter.Props.c91_command",
    "Subsetter.Props.c91_calls",
    "Subsetter.Props.c91_example",
    "Subsetter.Props.mi_run",
    "Subsetter.Props.mi_sound",
    "Subsetter.Props.mi_repeated",
    "Subsetter.Props.mi_files",
    "Subsetter.Props.mi_calls"
   ],
   "note": "Conditions are on the two databases, the configuration and the plan only (MergeRun, for commands MergeFiles); targets with both all and amount (C07), ignored foreign keys and circles in the destination are excluded. c91_command and c91_calls are about `subset` and sequences of calls of it. mi_run, mi_sound and mi_files show databases and files that meet the conditions, c91_example what two merges leave."
  },
  {
   "property": "C92",
   "status": "proved",
   "theorems": [
    "Subsetter.Props.c92_merge",
    "Subsetter.Props.c92_sound",
    "Subsetter.Props.c92_keys",
    "Subsetter.Props.c92_repeated",
    "Subsetter.Props.c92_bound",
    "Subsetter.Props.c92_no_gaps",
    "Subsetter.Props.c92_command",
    "Subsetter.Props.c92_calls",
    "Subsetter.Props.c92_example",
    "Subsetter.Props.c92_grows",
    "Subsetter.Props.mi_compact_run",
    "Subsetter.Props.mi_bound",
    "Subsetter.Props.mi_compact_files"
   ],
   "note": "The bound is `c92_bound` for runs and `c92_calls` for calls of `subset`; `c92_grows` shows that it fails without compaction."
  },
  {
   "property": "C93",
   "status": "proved",
   "theorems": [
    "Subsetter.Props.c93_tables",
    "Subsetter.Props.c93_merge",
    "Subsetter.Props.c93_compact",
    "Subsetter.Props.c93_ready",
    "Subsetter.Props.c93_repeated",
    "Subsetter.Props.c93_nothing_ready",
    "Subsetter.Props.c93_from_nothing",
    "Subsetter.Props.c93_command",
    "Subsetter.Props.c93_command_rows",
    "Subsetter.Props.c93_calls",
    "Subsetter.Props.c93_example",
    "Subsetter.Props.mc_route",
    "Subsetter.Props.mc_run",
    "Subsetter.Props.mc_runs",
    "Subsetter.Props.mc_grown",
    "Subsetter.Props.mc_files",
    "Subsetter.Props.mc_calls"
   ],
   "note": "Conditions on the source (`RouteOK`), on tables that are already there (`Ready`, met by a database without tables) and on each run (`GrowRun`) are kept apart; `Ready` is shown to hold again after each run."
  },
  {
   "property": "C94",
   "status": "partial",
   "theorems": [
    "Subsetter.Props.c94_unsampled_rows",
    "Subsetter.Props.c94_run",
    "Subsetter.Props.c94_again",
    "Subsetter.Props.c94_resample_partial",
    "Subsetter.Props.c94_example",
    "Subsetter.Props.c94_example_applies",
    "Subsetter.Props.c94_amount_example",
    "Subsetter.Props.c94_amount_applies",
    "Subsetter.Props.c94_percent_again",
    "Subsetter.Props.c94_amount_again",
    "Subsetter.Props.c94_again_example",
    "Subsetter.Props.c94_run_example"
   ],
   "note": "Without random choice proved in full. With amounts proved for targets that no sampled table refers to; for the others it is false (`c94_amount_again`), and so it is for percentages (`c94_percent_again`)."
  },
  {
   "property": "C95",
   "status": "proved",
   "theorems": [
    "Subsetter.Props.c95_plan",
    "Subsetter.Props.c95_source",
    "Subsetter.Props.c95_destination",
    "Subsetter.Props.c95_kept",
    "Subsetter.Props.c95_command",
    "Subsetter.Props.c95_example_applies",
    "Subsetter.Props.c95_example",
    "Subsetter.Props.c95_referring_matters"
   ],
   "note": "`c95_referring_matters` shows why tables that refer to filled ones are excluded."
  },
  {
   "property": "C96",
   "status": "proved",
   "theorems": [
    "Subsetter.Props.c96_same_rows",
    "Subsetter.Props.c96_identical",
    "Subsetter.Props.c96_create",
    "Subsetter.Props.c96_directory",
    "Subsetter.Props.so_truncated",
    "Subsetter.Props.c96_example",
    "Subsetter.Props.so_create",
    "Subsetter.Props.so_merged",
    "Subsetter.Props.c96_generated_differ"
   ],
   "note": "`c96_generated_differ` shows why filters that generate values are excluded: the outputs process the tables in different orders."
  },
  {
   "property": "C97",
   "status": "proved",
   "theorems": [
    "Subsetter.Props.c97_same_rows",
    "Subsetter.Props.c97_identical",
    "Subsetter.Props.od_filled",
    "Subsetter.Props.od_created",
    "Subsetter.Props.c97_example"
   ],
   "note": "C96 has the witness that generated values depend on the order of tables, `c96_generated_differ`."
  },
  {
   "property": "C98",
   "status": "proved",
   "theorems": [
    "Subsetter.Props.c98_resume",
    "Subsetter.Props.c98_again",
    "Subsetter.Props.c98_settled",
    "Subsetter.Props.c98_many",
    "Subsetter.Props.rt_ok",
    "Subsetter.Props.rt_copied",
    "Subsetter.Props.rt_repeatable",
    "Subsetter.Props.rt_settled",
    "Subsetter.Props.c98_example",
    "Subsetter.Props.c98_no_key",
    "Subsetter.Props.c98_directory",
    "Subsetter.Props.c98_directory_again",
    "Subsetter.Props.c98_files_example",
    "Subsetter.Props.c98_states",
    "Subsetter.Props.c98_enforced",
    "Subsetter.Props.rt_checked"
   ],
   "note": "`c98_no_key` shows why primary keys are required; `c35_other_random_values`, `c77_merge_adds_again` and `c77_conflict` show why the other conditions are."
  },
  {
   "property": "C99",
   "status": "proved",
   "theorems": [
    "Subsetter.Props.c99_filters",
    "Subsetter.Props.c99_directory",
    "Subsetter.Props.c99_unplanned",
    "Subsetter.Props.c99_unplanned_directory",
    "Subsetter.Props.ot_filters",
    "Subsetter.Props.c99_example",
    "Subsetter.Props.c99_applied",
    "Subsetter.Props.c99_files_example",
    "Subsetter.Props.c99_generated",
    "Subsetter.Props.c99_misspelt"
   ],
   "note": "`c99_generated` shows why filters of the other tables must not draw random numbers; `c99_misspelt` that filters under a misspelt table name are ignored."
  },
  {
   "property": "C100",
   "status": "proved",
   "theorems": [
    "Subsetter.Props.c100_strategy",
    "Subsetter.Props.c100_unique",
    "Subsetter.Props.c100_example",
    "Subsetter.Props.c100_conflict",
    "Subsetter.Props.c100_generated",
    "Subsetter.Props.c100_generic"
   ],
   "note": "`c100_generated` and `c100_generic` are the exceptions named in the statement."
  },
  {
   "property": "C101",
   "status": "partial",
   "theorems": [
    "Subsetter.Props.c101_reorder_partial",
    "Subsetter.Props.c101_directory_partial",
    "Subsetter.Props.ro_reordered",
    "Subsetter.Props.c101_example",
    "Subsetter.Props.c101_applied",
    "Subsetter.Props.c101_same_column",
    "Subsetter.Props.c101_both_random",
    "Subsetter.Props.c101_omit"
   ],
   "note": "Proved for filters of which at most one draws random values or calls a plugin; `c101_both_random` shows that it is false for two that do. Multiplexed filters and filters that drop columns are not exchanged."
  }
 ]
}
