# Formal model of msg555/subsetter in Lean 4 — design

The model lives in `lean/Verif/`. Layout:

| directory | contents |
|---|---|
| `Verif/Model/*.lean` | the model: one Lean definition per Python function, each with the `/repo` lines it models and the simplifications made |
| `Verif/Spec/*.lean`  | small, independent vocabulary in which properties are stated (edges, connectedness, "before", referential integrity, ...) |
| `Verif/Proofs/*.lean`| helper lemmas |
| `Verif/Props/*.lean` | the property theorems, one file per area, with non-vacuity `example`s beside them |

## Modelling conventions

* Python exceptions are values of an error type inside `Except`.
* `dict` = association list with unique keys in insertion order (`Model/Py.lean`). `set` = duplicate-free
  list. Where Python iterates over a set the model iterates over the list; since theorems quantify over
  every list order, they cover every hash seed.
* `for u in q: ... q.append(v)` and `while` loops are structurally recursive functions with an explicit
  fuel argument whose value is computed from the input; running out of fuel is a separate error value and
  a theorem shows that it never occurs (so termination is a theorem, not an assumption).
* SQL: a table is a list of rows, a row maps column names to values or NULL, conditions evaluate in
  three-valued logic. `random()` and `ORDER BY random() LIMIT n` are resolved by an oracle; theorems
  quantify over all oracles for which `random() < x` is false for `x ≤ 0` and true for `x ≥ 1`. (On SQLite
  `random()` is an integer; there the assumption fails and C70 says what happens, see below.) Raw SQL text and `LIKE` are opaque parameters of the semantics.
* The size of the write buffer (1024 in the source) is a parameter: theorems about batches (C33, C62 and what builds on
  them) hold for every size; with size 0 they describe the state after every row.
* Python ints are `Int`/`Nat` (both unbounded). Floats (`percent`, `threshold`) are exact rationals.

## What is modelled

`solver.py` (all), `metadata.py` (all but SQLAlchemy reflection itself), `plan_model.py` (all; `build` is
modelled twice: by what the plan asks for, `Model/Sql.lean`, and by the syntax tree it makes, `Model/Build.lean`, with the
meaning SQL gives it, `Model/SqlAst.lean`; C75 connects the two), `planner.py` (all but logging),
`sampler.py` (all but the DDL of temporary tables, engines, progress bars), `filters.py` (chain machinery and all
built-in filters; generators and plugins are parameters), `common.py` (`parse_table_name`,
`database_url`, SSL argument selection, `pydantic_search`), `config_model.py` (all), `__main__.py` (the commands,
`_get_config` without opening files).

## What is not modelled

SQLAlchemy and database engines (replaced by the denotational semantics above), pydantic itself (its lax conversions
of scalars are a parameter in C71; error messages are left out), YAML text syntax, `re.sub` (a parameter), `fnmatch` (a parameter everywhere but in C67 and C73, where it is the model of the standard library's function), Faker, logging, tqdm, argument parsing.

## Plan per property

| id | what is modelled | how it is proved |
|---|---|---|
| C01 | `order_graph`, `toposort_reachable` (iterative DFS with weights) | DFS invariant; weights satisfy w(u)=1+Σw(v); phase invariant for the alternating closure |
| C02 | same | phase closure invariant: both neighbourhoods of all but the last phase are visited |
| C03 | same | stack is a path; a finished DFS yields strictly decreasing weights, so no cycle |
| C04 | same | weights are determined by the recursion equation, sort keys are total |
| C05 | same with fuel | potential function decreases with every DFS step |
| C06 | `toposort` (Kahn) | degree invariant; pigeonhole for the cycle |
| C07 | planner + statement semantics + sampler evaluation | from C01-C03: case split on which of the two tables is ordered first |
| C08-C12 | `_plan_table`, `simplify`, statement semantics | unfold the emitted query; counterexamples where documentation and code disagree |
| C13-C15 | planner checks and FK rewriting | direct |
| C16 | `compute_reverse_keys` | counterexample + partial theorem |
| C17 | `infer_missing_foreign_keys` | induction over the table list |
| C18 | `from_engine` BFS | queue invariant |
| C19 | `_plan_internal` | from C01 |
| C20, C21 | `simplify` | induction over the mutual syntax tree; counterexample for unions with joins |
| C22 | `SQLStatementSelect.build` | denotation of JOIN/GROUP BY vs EXISTS |
| C23, C24 | `_materialization_order`, `sql_build_context` | from C06; counting |
| C25 | `_generate_name` | history invariant + string injectivity |
| C51, C52 | index names, case folding of names | as C25; counterexample for C52 |
| C53 | `_is_distinct` | keys against the rows of the database; counterexample without primary key |
| C26-C28 | `_multiply_column`, `_get_multiplied_columns` | arithmetic; bounded monotone iteration; counterexample for C27 |
| C29, C30 | `prepare`, offsets in `output_result_set` | arithmetic; counterexamples |
| C31, C32 | `row_number` compaction, outer joins | permutation of an interval; uniqueness of the parent |
| C33 | buffer loop | loop invariant |
| C34, C35 | `ConflictInsert` as map update | refinement to a finite map; idempotence/absorption |
| C36 | truncate/insert order | from C06 |
| C37, C38 | `_remap_table`, `parse_table_name` | list lemmas |
| C39 | `insert_order`, `create` | from C06; counterexample without create |
| C55 | `create`, `track_new_table` | induction over the remapped tables |
| C54 | `FilterZero.filter_values` | case analysis |
| C40-C43 | filters | list lemmas, non-interference |
| C44 | `_dict_merge` | induction on nested mappings |
| C45 | `pydantic_search` over a heap graph | DFS invariant |
| C46 | `_autoincrement_*` state machine | case analysis; counterexample for "never backwards" |
| C47 | `database_url`, `database_engine` | case analysis; counterexample |
| C48 | `_materialize_tables`, `_copy_results`, each statement with its own snapshot | counterexamples; each table against its snapshot, order of dependent statements; partial theorem for sources that keep referenced values |
| C49 | reading of a plan as a validated data tree (`Model/PlanFile.lean`: aliases, tagged unions, defaults, the two shapes of `in` values), writing as a relation (unset fields with default value may be missing, order of keys open) | round trip by mutual induction on plans; execution equal by C23; for the planner existence of a file from the shape of its plans; fuel of the reader bounded by the depth of the tree. Not modelled: YAML text (taken to preserve strings, numbers, booleans, lists and dicts), pydantic's lax coercions, `sql_params` (the planner sets none), NaN |
| C50 | directory output loop | list lemma |
| C56 | planner + statement semantics | each query form returns a sub-multiset of the source table |
| C57 | `get_connect_args`, `database_engine` | case analysis against a small measure of security |
| C58, C61, C62 | `Sampler.sample` as a whole (`Model/Run.lean`): composition of the models of loading, inference, filter validation, multiplicity, output, compaction, materialization and copying, with the history of committed destination states | decomposition of the interleaved loop into jobs; C23, C33, C34 for what each job writes |
| C59 | same, with `create` into a database without the planned tables (other tables may be there) | every step of the run shown not to fail, from the planner's theorems. Not modelled: indexes and check constraints of created tables, limits on the length of names, errors of the server, numeric (not integral) automatically incremented columns |
| C60 | same | C07 for the sample, C36 for truncation and insertion |
| C63 | same | case analysis on the step that failed; counterexamples for the steps after truncation |
| C65 | `_main_plan`, `_main_sample`, `_main_subset` (`Model/Main.lean`); the file as in C49 | C49 for the plan read, C61 for both runs: what is written depends only on the query of each table |
| C66 | `sample` with `DirectoryOutput` (`Model/RunDirectory.lean`): create, truncate and prepare do nothing, tables come in the order of the plan | as C61 and C59, with C50 for the lines of a table |
| C67 | `fnmatch.translate` of Python's standard library (POSIX) and what its regular expression matches (`Model/Fnmatch.lean`) | induction over the pieces of a pattern; lengths for names with brackets; C66 with `fnmatch` for its parameter |
| C68 | `MultiplexCondition.match` with Python's comparisons of None, numbers (no NaN), strings and lists (`Model/Match.lean`) | case analysis against a separate definition of order and equality; C43 for the filter chosen |
| C69 | `random_int`, `random_string`, `constant`, `null` on top of `Random._randbelow` (`Model/Random.lean`) | the chain is split at the deciding filter; invariant of all rows at rest through `Commits` for every conflict strategy (C61, C62) |
| C70 | `random() < threshold` and `ORDER BY random() LIMIT n` of planned targets, for a source of draws with `N` equally likely values (`Spec/Percent.lean`) | the target's rows from C10's case analysis; double counting of outcomes; SQLite's integers as one such source |
| C71 | validation by the pydantic models of `config_model.py`, `common.py` and `filters.py` (`Model/ConfigFile.lean`) | reference of the file in `Spec/ConfigFile.lean`; each reader is shown to accept exactly what the reference describes, composed field by field |
| C72 | names of indexes and foreign keys in `create` (`Model/CreatedNames.lean`) | decomposition of the name at its last underscore; destinations differ by C37 |
| C73 | the three commands from the documents of the configuration to the exit status (`Model/Command.lean`) | composition of C71, C59, C60, C66, C65 and C67; `c60_created_partial` derives the conditions of C60 from `CopyOf`; with compaction and multiplication from C74 and C83 (`Props/CommandRefs.lean`) |
| C74 | runs of C57 with `IdsFollow` (`Spec/RunRefs.lean`) | the invariant of C60 for rows described by `Sent`, with C32 for compaction, C27 for copies and C30 for offsets |
| C75 | `build` of all clauses and statements as syntax trees with named FROM elements and scopes (`Model/SqlAst.lean`, `Model/Build.lean`), `_materialize_tables`, `_copy_results` and the run with these statements (`Model/SqlRun.lean`) | structural induction for statements (joins under `half_unique` match at most one row by GROUP BY on the primary key); simulation between temporary tables with and without the added column; the planner's plans meet the conditions (`Proofs/SqlPlan.lean`) |
| C76 | the run of C60-C75 unchanged; the vocabulary of what is hidden and what reads it is `Spec/Anonymity.lean` | a run commutes with blanking the hidden columns of the source (`Proofs/Blank*.lean`: statements, temporary tables, compaction, plugins, filter chain, files); two sources that differ in hidden values have the same blanked source; plans of the planner read no hidden column (generic induction `PlanShape.of`) |
| C77 | the run of C58-C75 unchanged | simulation of two runs whose histories agree on the loaded tables (`Proofs/Fresh.lean`): truncation establishes it, offsets and batches only read loaded tables |
| C78 | the run of C58-C75 unchanged; what keys need is `Spec/RunKeys.lean` | a failing flush names the rows it met (`Proofs/KeyConflict.lean`); every written key is the source key under maps that are injective (compaction by C28 and referential integrity of the sample C07, multiplication by C29, one offset per column), and lies past what the destination held if merged (`Proofs/RunKeys.lean`) |
| C79 | the run of C58-C75 unchanged; what configuration and rows need is `Spec/RunWorks.lean` | each step before copying succeeds (`Proofs/RunConfigured.lean`); a run that fails while copying names the table, the row and the step (`Proofs/RunFails.lean`), and each of them is excluded: reading by C28 and the integrity of the sample, transforming by `Writable`, conflicts by C78 (`Proofs/RunWorks.lean`) |
| C80 | the run of C58-C79 unchanged; `Carried` (`Spec/Declared.lean`) says when a key is to survive | the step from one written row to the row it refers to, taken from C60/C74 for a single key (`new_refers`), applied to the final state (`Proofs/Logical.lean`); inferred keys by C81 |
| C81 | the run, the run into a directory and planning unchanged; `Declares` (`Spec/Declared.lean`) relates two source schemas | inference is a function of the set of loaded tables and keeps the order of columns, so the tables after inference are those loaded from the other source (`Proofs/Declared.lean`) |
| C82 | the run of C58-C81 unchanged; `Spec/Unique.lean` says what columns need | every value written is the value of the source under injective maps, or NULL (`any_column`), copies differ in a multiplied column, shifted values lie past what is there; batches by induction with any strategy (`commits_distinguish`); at all times by C62 (`table_any_time`) |
| C83 | `Model/Enforce.lean`: the run with a check of the contents after each deletion and each row; `Spec/Enforce.lean` says what a database enforces | simulation of the buffered run, checked and not, with the run that commits each row (`along_loop`): the latter has inserted what the former has in its buffer; a row that cannot be inserted fails in all of them (`Doomed`). The run with buffer 0 is an instance of C62, C74 and C82, which hold for every buffer size |
| C84 | the runs of C61 with two buffer sizes | both are compared with the run that commits each row (`Proofs/Buffer.lean`, on top of the simulation for C83): same success, same contents, states a subset |
| C85 | the runs of C61 together with the sequences behind autoincrement columns (`Model/Sequences.lean`); `currval` is arbitrary | induction over the tables copied, using C46 for each of them; for merged tables the keys sent are past those held (from C78) |
| C86 | `main` for parsed arguments with the files of the file system, standard input, output and exit status (`Model/Shell.lean`), around the commands of C73; `argparse`, aliases of paths and the key `echo` are left out; SQLAlchemy's `echo` is taken to print on standard output as documented | cases over the commands; the reading of configuration files against an inductive relation that does not use the loop; for two commands C73 |
| C87 | the statements of `ConflictInsert` for MySQL, PostgreSQL and SQLite on tables with unique constraints, and runs with them (`Model/Conflicts.lean`); that `INSERT IGNORE` hides other errors is left out; foreign keys are not enforced here (C83) | cases over one insertion, then induction over batches; runs by comparison with the checking destination of C83 |
| C88 | the whole planner on loaded tables and from a database (`Model/Planner.lean`); tables linked to a target and the conditions of `CanPlan` are stated without the planner's graph (`Spec/CanPlan.lean`) | the facts of C13, C14, C19, C64 about made plans in one direction; in the other, every error is refuted, with the reported cycle traced back to links between tables |
| C89 | the whole planner on two inputs that agree up to order (`Model/Planner.lean`, `Model/Metadata.lean`); agreement is stated on tables and names (`Spec/Reproducible.lean`) | each step of planning is shown to respect agreement: inference by C17's description of unique primary keys, reverse keys up to permutation, the order by C04, one table because permuted keys sort to the same list; then both loops are compared |
| C90 | samples of two plans of the same tables (`Model/Planner.lean`, `Model/Sql.lean`); "more generous" is stated per table on the rows the options choose (`Spec/Looser.lean`) | both plans list the same tables in the same order; induction along it with the four shapes of a query; independence of unrelated tables is the theorem applied both ways |
| C91 | a whole run with merging (`Model/Merge.lean`, `Model/Run.lean`) into a destination whose tables have the columns and keys of the source (`Twins`, `MergeKeys` in `Spec/MergeInto.lean`) | the conditions of the run-level theorems on rows and keys (C61, C74, C79) are derived from the two databases; the destination is `Sound` before and after, so sequences of runs, and of calls of `subset` (`Spec/MergeCommand.lean`), follow by induction |
| C92 | the same with compaction of primary keys (`Model/Compact.lean`); rows are described by `RenumberedRow` and `KeysBetween` (`Spec/MergeCompact.lean`) | one theorem about merging runs with or without compaction (`Proofs/MergeWorks.lean`), from which C91 and C92 follow; that sampled references find a row in the sample is C07, that identifiers are consecutive C31; the bound is an induction over runs |
| C93 | `sample` with `create` and `merge`, where the tables of the destination change from run to run (`Spec/MergeCreate.lean`: `Route`, `Ready`, `grown`; `Spec/MergeCreateCommand.lean` for calls of `subset --create`) | the schema after creation is described by `Creation` (`Proofs/CreatedSchema.lean`); from it the conditions of merging (`TwinsIn`, shared with C91 and C92) are derived for the new schema, and `Ready` for the next run |
| C94 | the sample (`IsSample`, C05) of two sources that differ in rows (`Spec/Resample.lean`: `Between`, `NoDraw`, `DrawsAgain`), and `sample` on both | induction along the plan, as for C90: each table is a filter of its source rows by conditions on the rows of earlier tables, and a filter is the same on any rows between its result and its source. False with percentages and with amounts on targets that get further rows, which are drawn again; shown by examples |
| C95 | `plan` and `sample` unchanged, on databases with further tables (`Spec/Unrelated.lean`: `Beside`, `BesideSource`, `BesideDest`) | `from_engine` gives the same result: the loop of its closure meets only relevant tables, whose entries and dependencies are the same in both databases (induction on the queue, fuel is monotone); all later steps see the databases only through it, and the rows through the sample (C94) |
| C96 | `sample` and `sampleDirectory` on the same configuration and source; filters without generators and plugins (`Spec/SameOutput.lean`: `Settled`, `Agrees`) | both derive the same tables, multiplied and compacted columns and temporary tables, so that they read the same rows; a settled chain gives the same values in any state of the outside world; the lines (C50) and the rows written (C61) are then compared copy by copy |
| C97 | two runs of `sample` with the same source and the same transformations but different destinations (`Spec/OtherDestination.lean`: `SameSource`) | as C96: both runs read the same rows, and copies of the same row have the same values in columns written in both; destinations, their contents, names, dialects and buffer sizes enter only after that |
| C98 | a run of `sample` that neither truncates nor merges nor creates, stopped at any commit (`hist`), and a second run from there with the same random choices (`Spec/Repeat.lean`: `Repeatable`) | both runs commit the same list of batches, as functions of the contents; per table, the rows of a prefix and then all rows inserted with `skip` or `replace` give what all rows give (`foldl_ins_idem`, used for C35); witness: a table without primary key gets its rows twice |
| C99 | two runs of `sample` (and of `sampleDirectory`) that differ in the filters of one planned table, and in random choices | what is read, and every job but that of the table, is the same; writing keeps the contents equal outside of its destination; filters of other tables must be settled (C98: such filters neither use nor change the random state); witness: generated values of other tables shift |
| C100 | runs of `sample` and of `sampleUnique` (unique constraints beside primary keys, C87) that differ in the conflict strategy only | what is read is the same; a batch that is inserted without a conflict is inserted alike by all three statements; hence a run that succeeds with `error` gives the same history with `skip` and `replace` |
| C101 | two runs of `sample` (and of `sampleDirectory`) whose lists of filters differ by exchanging neighbours that work on different columns | two views on disjoint indices commute if one of them does not use the random state (`place`, `pick`), hence chains, rows, batches and histories are equal once the first run succeeds; witnesses: two filters that draw random values, filters on the same column |
| C64 | `_check_ignore_tables`, `_check_passthrough_tables`, `_plan_internal` | shape of the planner's output (C01-C03), closure of the passed through tables |

## Where the code disagrees with a property

Each entry has a theorem with a concrete witness; the claim is kept in full in `properties.jsonl` and
proved in part.

| id | disagreement | witness |
|---|---|---|
| C07, C11 | a target's `amount` still limits a target with `all: true`; rows referred to by other tables are then missing | `c07_all_amount_breaks_keys`, `c11_amount_not_overridden` |
| C08 | rows with NULL in a foreign key violate nothing but are dropped (inner join) | `c08_null_reference_dropped` |
| C10 | `SQLStatementUnion.simplify` forgets `joins` when merging: a target without `amount` that sampled tables refer to is copied in full | `c10_without_amount_everything`, `c10_excess_rows` |
| C12 | constraints on target tables are silently ignored (likewise passthrough tables) | `c12_target_constraints_ignored` |
| C16 | `compute_reverse_keys` raises `KeyError` for a reference to a table that is not loaded | `c16_open_reference_fails`, `c16_key_error` |
| C19 | a target with the empty name coincides with the solver's source node and is accepted | `c19_empty_target_name_accepted` |
| C21 | same cause as C10, at the level of statements | see `Props/PlanModel.lean` |
| C27 | `set(fk.columns) & dst_mapped` compares column names of the child with those of the parent: a reference by a column named differently is not multiplied; a key column that refers into a passthrough table is | `c27_renamed_column_not_multiplied`, `c27_key_into_passthrough_multiplied` |
| C41 | `omit` does not validate its columns: a misspelt column is silently kept | `c41_omit_unchecked` |
| C41, C99 | filters under the name of a table that is not planned only cause a warning in the log, so with a misspelt table name nothing is anonymised | `c99_misspelt` |
| C101 | filters on different columns share their generators, so exchanging two that draw random values changes both columns | `c101_both_random` |
| C54 | `bool` is a subclass of `int`: booleans are zeroed to the integer 0 | `c54_boolean_becomes_int` |
| C34 | on SQLite `replace` resets columns that are not written to their default (`set_=stmt.excluded`) and cannot be used with generated columns; a filter that omits a key column makes every batch fail | `c34_sqlite_resets_unwritten`, `c34_sqlite_generated_column`, `c34_key_column_omitted` |
| C35 | a rerun does not converge with random filters, and fails with strategy `error` | `c35_rerun_error` |
| C36 | with `skip`, references to columns outside the primary key can lead to a skipped row | `c36_skip_dangles` |
| C39 | without `create`, planned tables missing in the destination are skipped without an error; a self reference or cycle anywhere among the loaded destination tables makes every run fail | `c39_missing_skipped`, `c39_self_reference_fails` |
| C46 | `currval` is only defined in a session that used the sequence, so in a fresh session `setval` can move the sequence backwards; after a failure it is not updated | `c46_moves_backwards`, `c46_failure_leaves_behind` |
| C55 | a foreign key of a new table to an unplanned table raises `KeyError` | `c55_unplanned_reference_fails` |
| C29 | an empty destination table is not shifted and negative keys present give a smaller shift than README says; negative source keys can collide | `c29_readme_differs`, `c29_negative_collides` |
| C30 | merging breaks references to a key that is itself a reference, keys that refer into passthrough tables, passthrough tables that refer to merged ones, and references by several columns | `c30_chain_broken`, `c30_passthrough_key_broken`, `c30_passthrough_child_broken`, `c30_composite_broken` |
| C24 | copies of temporary tables are counted once per foreign key but used once per column (`KeyError` on MySQL for a key with two compacted columns); a table that refers to a compacted column of its own opens one copy twice | `c24_copy_missing`, `c24_own_copy_twice` |
| C32 | a key column that refers to a compacted one changes, but columns that refer to that key do not; the check for compacted columns within foreign keys is skipped if only `columns` is configured; a referenced column with duplicates duplicates rows; references to rows outside of the sample become NULL | `c32_chain_not_followed`, `c32_named_column_breaks_reference`, `c32_duplicates_rows`, `c32_dangling_reference_lost`, `c32_two_keys_one_column` |
| C44 | a file (or section) that is empty loads as `None` and discards everything merged before it; lists are replaced, not joined | `c44_empty_file_discards`, `c44_lists_replaced` |
| C47 | SSL arguments, isolation level and attached databases follow the configured dialect only, not `*_DIALECT` of the environment; empty variables are not treated as unset | `c47_environment_dialect`, `c47_empty_variables` |
| C57 | `verify` without `require` opens a plain connection; `SSL_REQUIRE=false` switches encryption on; a misspelt `SSL_SERVER_VERIFY` means none | `c57_verify_without_require`, `c57_words_unchecked` |
| C48 | each statement sees its own snapshot: rows deleted meanwhile, and rows added while a parent is copied in full (passthrough, unlimited target), give dangling references | `c48_fails`, `c48_added_rows_passthrough`, `c48_added_rows_all` |
| C52 | numbering of temporary tables distinguishes names by case | `c52_case_collision` |
| C63 | compacted columns, circles of the plan, columns missing in the destination and, with `merge`, missing tables are noticed only after the destination tables have been truncated | `c63_compact_late`, `c63_compact_name_late`, `c63_plan_late`, `c63_columns_late`, `c63_merge_late` |
| C60 | the causes listed under C07, C27, C30, C32 and C36 leave dangling references in the destination | `c60_multiplied_dangling` |
| C53 | a table without primary key has an empty primary key constraint, contained in every column set | `c53_no_primary_key` |
| C67 | names of planned tables are passed to `from_engine` as patterns: a table `a[b]` is planned through `select: ["s.*"]` but not found when sampling (`KeyError`), after truncation | `c67_brackets_lost` |
| C68 | a condition that suits no value (`in` with a number) is accepted and makes the run fail at the first row, after truncation; `in` with a string searches within it; `is` compares identities, so equal numbers need not match | `c68_late`, `c68_surprises` |
| C69 | `random_int` with `low > high` is accepted; no row of the table gets through and the run fails after truncation; `random_string` with a negative length writes empty strings; numbers written into key columns are multiplied and shifted afterwards and leave their range | `c69_empty_range`, `qx_late`, `c69_multiplied`, `c69_shifted` |
| C70 | on SQLite `random()` is a signed integer, so `percent` keeps half of the rows whatever its value; a `random` condition with threshold 1 or more in a plan that was not simplified keeps half of the rows too | `c70_sqlite`, `hx_sqlite` |
| C71 | unknown options are refused only in sections based on `ForbidBaseModel`; in `source`, `ssl`, a database as output, filters and conditions they are ignored, so a misspelt `conflict_strategy`, `merge`, `ssl.require` or `unique` silently has its default | `c71_misspelt_ignored` |
| C71 | the reference `subsetter.example.yaml` documents a filter `random_uuid`, but the word the code accepts is `uuid` (`filters.py:363`), and its example of `random_string` has no `columns`: a configuration with either is refused | `c71_random_uuid`, `c71_reference_refused` |
| C72 | foreign keys of created tables keep their names, which collide on MySQL when schemas are joined or copies are created beside the source; index names of long tables exceed the limit | `c72_joined_schemas`, `c72_beside_source`, `c72_long_names` |
| C75 | a target with a misspelt column in `like` or `in` is planned; the run raises `KeyError` when the statement is built, after truncation | `c75_misspelt_column` |
| C75 | a plan whose raw SQL query is materialized or compacted raises `AttributeError` (`sa.text` has no `subquery`/`selected_columns`), after truncation | `c75_raw_sql_error` |
| C75 | rows with a reference to a compacted value that occurs twice are duplicated and numbered after joining, so a row gets several identifiers (the earlier model of compaction, C32, gives all copies the same) | `c75_lookup_numbers_twice` |
| C76 | for a table without primary key `UNION` compares whole rows, so the number of rows sampled tells whether scrubbed values were equal; a `like` or `in` target on a scrubbed column tells by which rows are there | `c76_keyless_tells`, `c76_target_tells` |
| C78 | a primary key listed under `ignore_primary_key_columns` of the multiplier is written twice; with `compact.start_key` below zero (which the configuration accepts) merged keys meet existing ones. Both end the run with an IntegrityError | `wx_exempt`, `wx_below` |
| C79 | a filter that puts text into a multiplied or shifted key raises TypeError in the middle of the run, and one that omits a column of the primary key raises KeyError with conflict strategy `replace`; neither is noticed by the checks at the start | `wx_text_key`, `wx_omitted_key` |
| C80 | the sampler does not know `extra_fks` and infers foreign keys by its own option and from the planned tables only, so compaction breaks references the planner followed | `c80_extra_key_broken`, `c80_planner_inference_broken` |
| C81 | inferred keys neither become constraints of created tables nor make the planner include the tables referred to | `c81_created_without_inferred`, `c81_dependencies_not_inferred` |
| C82 | rows are multiplied, merged and filtered without regard to unique constraints other than the primary key, so copies collide in them; the run fails on a destination that checks, and only there | `wu_multiplied`, `wu_merged`, `wu_filtered` |
| C83 | destinations that check foreign keys or unique constraints stop runs that multiply or merge rows with unique values, or whose plan ignores a foreign key the destination has; the batch is rolled back, what was committed stays | `wu_rejected`, `wu_taken`, `rx_dangling` |
| C84 | what a failed run leaves depends on the buffer size: the whole batch is rolled back | `c84_failed_differ` |
| C85 | with rows kept in the destination the sequence can fall back below them, since `currval` is rarely defined in the session used; a failed run does not update it at all | `c85_falls_back`, `c85_failed_behind` |
| C86 | `plan` prints by default what `sample` expects in `plan.yaml`; `-` is a file for `plan -o` and standard input for `sample -p`; with `-vvv` statements are logged to standard output where the plan is; an interrupted write loses the older plan | `c86_defaults`, `c86_dash`, `c86_verbose`, `c86_broken` |
| C87 | `skip` is documented to insert a row "if no row with the matching primary key exists", but a row with a new primary key is left out without an error if a unique constraint is violated, so that references to it dangle; `replace` on MySQL overwrites the row that has the unique value, under its own primary key, while PostgreSQL and SQLite fail | `c87_skip_drops`, `c87_replace_other`, `wu_lost`, `wu_replaced` |
| C90 | giving a referenced target with a filter an amount loses rows although the amount exceeds the table, because without one the filter was ignored (C10); `all` beside an amount loses the rows other tables refer to (C07); a table named as further target is no longer sampled through its foreign keys | `c90_limit_added`, `c90_all_added`, `c90_target_added` |
| C94 | Sampling a sample again with an amount gives the same rows only if no sampled table refers to the target: one user is drawn and another added for an order, and of the two the second may be drawn next time. Percentages are drawn again in any case. | `c94_amount_again`, `c94_percent_again` |

Assumptions used throughout the planner theorems: schema names contain no dot (`parse_table_name` splits
at the first one), no target is named "", `extra_fks` passed its pydantic validator (which C71 proves of accepted configurations), table metadata is
well formed (`Spec.TablesOK`), primary keys of the source are unique and not NULL (`Spec.PkOK`).

## Trusted base

Lean 4.33.0's kernel; axioms `propext`, `Classical.choice`, `Quot.sound` at most (checked with
`#print axioms`, listed per theorem in `AXIOMS.md`); the reading of the Python source recorded in the comments of `Verif/Model`.

## Wrong programs

`seeded/LOG.jsonl` records edits of model definitions as a bug would make them. Each was applied to a copy of the project
and built; modules that no longer build are listed with the theorems in them that fail, and those that depend on these.
An edit after which the theorem that states the broken claim still proves led to a tightened statement, named in the entry.
