{"id": "C01", "title": "A successful ordering follows foreign keys in one direction per table", "statement": "When the planner orders tables, the synthetic source comes first, no table is listed twice, and every other table has, among the tables ordered before it, either at least one table that references it or at least one table that it references, and never both.", "quantifier": "every foreign-key graph (any number of tables, any edges, self-references included) in which nothing references the synthetic source, and every iteration order of the edge sets", "why_tests_cant": "the guarantee is about all graphs; the fuzz test draws 1000 random acyclic graphs with node 0 as source", "anchors": ["subsetter/solver.py:order_graph", "subsetter/solver.py:toposort_reachable"]}
{"id": "C02", "title": "The ordering contains exactly the tables connected to a target", "statement": "A successful ordering lists a table if and only if it can be reached from the source by following foreign keys in either direction; nothing connected is dropped and nothing unconnected is added.", "quantifier": "every closed graph whose source has no incoming or no outgoing edges", "why_tests_cant": "completeness over all graphs and all numbers of alternating phases cannot be sampled", "anchors": ["subsetter/solver.py:order_graph"]}
{"id": "C03", "title": "Ordering fails exactly when there is a foreign-key cycle, and the reported cycle is real", "statement": "Ordering raises the cycle error if and only if some directed foreign-key cycle exists among the tables connected to the source, and the list of tables it reports is a closed chain of foreign-key references (possibly listed against the direction of the references).", "quantifier": "every closed graph with a source nothing references, every edge iteration order", "why_tests_cant": "an iff over all graphs; tests exhibit single cyclic graphs", "anchors": ["subsetter/solver.py:order_graph", "subsetter/solver.py:CycleException", "subsetter/planner.py:Planner._solve_order"]}
{"id": "C04", "title": "The ordering does not depend on set iteration order", "statement": "Two runs on the same schema produce the same ordering even if the interpreter iterates the edge sets and dictionaries in a different order (hash randomisation).", "quantifier": "every pair of graphs that have the same nodes and the same edge sets, listed in any order", "why_tests_cant": "hash seeds and iteration orders cannot be enumerated by a test", "anchors": ["subsetter/solver.py:order_graph", "subsetter/solver.py:toposort_reachable"]}
{"id": "C05", "title": "The solver terminates and never raises an internal error on a closed graph", "statement": "For every graph whose edges lead to known tables the ordering and the topological sort terminate and end either in an ordering or in the documented cycle error, never in a lookup error or failed assertion.", "quantifier": "every closed graph and every source in it", "why_tests_cant": "termination on all inputs is not observable by running finitely many", "anchors": ["subsetter/solver.py:order_graph", "subsetter/solver.py:toposort_reachable", "subsetter/solver.py:toposort"]}
{"id": "C06", "title": "Dependency sort lists every table after everything it references, or fails because of a cycle", "statement": "The topological sort returns a permutation of all tables in which each table appears after all tables it references, and it fails exactly when the graph has a directed cycle (a self-reference counts).", "quantifier": "every closed graph, every edge iteration order", "why_tests_cant": "all graphs; tests check three literals", "anchors": ["subsetter/solver.py:toposort", "subsetter/metadata.py:DatabaseMetadata.toposort"]}
{"id": "C07", "title": "Sampled data keeps foreign keys intact", "statement": "After planning and sampling, every sampled row whose foreign key pointed at an existing source row still finds that parent row in the sampled data of the referenced table, for every foreign key the planner used between two tables of the plan.", "quantifier": "every schema, planner configuration and source database for which planning succeeds, every outcome of random() and of random row limits", "why_tests_cant": "quantifies over all schemas, data and random outcomes", "anchors": ["subsetter/planner.py:Planner._plan_internal", "subsetter/planner.py:Planner._plan_table", "subsetter/plan_model.py:SQLStatementSelect.build", "subsetter/sampler.py:Sampler._materialize_tables"]}
{"id": "C08", "title": "A table sampled through its own foreign keys gets the maximal consistent set of rows", "statement": "A non-target table that references earlier sampled tables receives exactly the rows all of whose references to those tables resolve in the sample (and that satisfy its table constraints); this is claimed to be the maximal set violating no foreign key.", "quantifier": "every plan, database and table sampled in the forward direction", "why_tests_cant": "needs all row contents including NULL references", "anchors": ["subsetter/planner.py:Planner._plan_table", "subsetter/plan_model.py:SQLStatementSelect.build", "README.md"]}
{"id": "C09", "title": "A table sampled because others reference it gets the minimal set of rows", "statement": "A non-target table referenced by earlier sampled tables receives exactly those of its rows that at least one sampled row references.", "quantifier": "every plan, database and table sampled in the backward direction", "why_tests_cant": "needs all row contents and all join shapes", "anchors": ["subsetter/planner.py:Planner._plan_table", "subsetter/plan_model.py:SQLStatementSelect.build", "README.md"]}
{"id": "C10", "title": "A target that other targets depend on is sampled as the union of both row sets", "statement": "A target table referenced by other sampled tables receives the rows chosen by its own target filter together with the rows the other tables reference, and no other rows.", "quantifier": "every plan with several targets, every database", "why_tests_cant": "the interaction of plan simplification with joins depends on configuration combinations no test lists", "anchors": ["subsetter/planner.py:Planner._plan_table", "subsetter/plan_model.py:SQLStatementUnion.simplify", "README.md"]}
{"id": "C11", "title": "The 'all' target option overrides every other target filter", "statement": "A target configured with all: true is sampled in full, whatever other target options are present.", "quantifier": "every target configuration with all set", "why_tests_cant": "all combinations of the other options", "anchors": ["subsetter/planner.py:Planner._plan_table", "subsetter.example.yaml"]}
{"id": "C12", "title": "Table constraints are enforced or planning fails", "statement": "If a table has configured constraints then either planning fails or every sampled row of that table satisfies all of them.", "quantifier": "every planner configuration and database", "why_tests_cant": "depends on the role the ordering gives the table", "anchors": ["subsetter/planner.py:Planner._plan_table", "subsetter.example.yaml"]}
{"id": "C13", "title": "Passthrough tables are copied in full and stay closed under foreign keys", "statement": "Every configured passthrough table that exists is part of the plan with a query selecting all of its rows; planning fails if a passthrough table references a table that is not passthrough.", "quantifier": "every schema and configuration", "why_tests_cant": "all schemas", "anchors": ["subsetter/planner.py:Planner._check_passthrough_tables", "subsetter/planner.py:Planner._plan_internal"]}
{"id": "C14", "title": "Ignored tables are never sampled and never referenced by sampled tables", "statement": "No ignored (non-passthrough) table appears in the plan, and with include_dependencies enabled planning fails whenever a non-ignored selected table references an ignored one.", "quantifier": "every schema and configuration", "why_tests_cant": "all schemas", "anchors": ["subsetter/planner.py:Planner._check_ignore_tables", "subsetter/planner.py:Planner._solve_order"]}
{"id": "C15", "title": "ignore_fks and extra_fks change exactly the requested relationships", "statement": "After applying ignore_fks no foreign key remains from the given source to the given destination table and all others are untouched; each valid extra_fks entry adds exactly that relationship and invalid ones add nothing.", "quantifier": "every schema, every list of ignore_fks and extra_fks", "why_tests_cant": "all lists and their interactions", "anchors": ["subsetter/planner.py:Planner._remove_ignore_fks", "subsetter/planner.py:Planner._add_extra_fks"]}
{"id": "C16", "title": "Disabling include_dependencies still yields a plan", "statement": "With include_dependencies false, a selected table may reference unselected tables and planning still succeeds, leaving those references alone.", "quantifier": "every schema and selection", "why_tests_cant": "needs all selections that are not closed under foreign keys", "anchors": ["subsetter/planner.py:Planner._plan_internal", "subsetter/metadata.py:DatabaseMetadata.compute_reverse_keys", "subsetter.example.yaml"]}
{"id": "C17", "title": "Foreign-key inference is exact", "statement": "Inference adds a key from column c of a table to another table exactly when that other table is the only one (in the schema, or overall) whose primary key is the single column c, the tables differ, and the key is not present yet; existing keys are kept.", "quantifier": "every schema and both inference modes", "why_tests_cant": "uniqueness over all tables", "anchors": ["subsetter/metadata.py:DatabaseMetadata.infer_missing_foreign_keys"]}
{"id": "C18", "title": "Table selection is the closure of the selected tables under references", "statement": "The tables considered are exactly those matching a pattern plus those reachable from them along foreign keys (forwards when pulling dependencies, backwards when collecting referencing tables), each once, and the reported additional tables are exactly those not matched directly.", "quantifier": "every schema, pattern set and closure direction", "why_tests_cant": "transitive closure over all schemas", "anchors": ["subsetter/metadata.py:DatabaseMetadata.from_engine"]}
{"id": "C19", "title": "Planning never trips its internal assertions", "statement": "Whenever planning passes its documented validity checks it returns a plan; the solver never hands the query generator a table with references in both directions, a table with no reason to be sampled, or a target that references an earlier table.", "quantifier": "every schema and configuration with include_dependencies enabled", "why_tests_cant": "all graphs", "anchors": ["subsetter/planner.py:Planner._plan_table", "subsetter/planner.py:Planner._solve_order"]}
{"id": "C20", "title": "Simplifying a condition never changes which rows it accepts", "statement": "Replacing a condition by its simplified form gives the same three-valued result on every row, for the same random draws.", "quantifier": "every condition tree of any depth, every row, every random outcome, every database", "why_tests_cant": "unbounded trees and NULL semantics", "anchors": ["subsetter/plan_model.py:SQLWhereClauseAnd.simplify", "subsetter/plan_model.py:SQLWhereClauseOr.simplify", "subsetter/plan_model.py:SQLWhereClauseRandom.simplify", "subsetter/plan_model.py:SQLWhereClauseIn.simplify"]}
{"id": "C21", "title": "Simplifying a statement never changes the rows it selects", "statement": "The simplified select or union statement returns the same set of rows as the original.", "quantifier": "every statement, database and random outcome", "why_tests_cant": "unbounded statement shapes", "anchors": ["subsetter/plan_model.py:SQLStatementSelect.simplify", "subsetter/plan_model.py:SQLStatementUnion.simplify"]}
{"id": "C22", "title": "The join strategy does not affect the sampled rows", "statement": "Whether a relationship is marked half_unique (JOIN plus GROUP BY) or not (EXISTS) the select returns exactly the rows that match in all (inner) or at least one (outer) of the joined sampled tables, each row once.", "quantifier": "every table with a valid primary key, every list of joins, every data including NULLs", "why_tests_cant": "all multiplicities of matches and NULL patterns", "anchors": ["subsetter/plan_model.py:SQLStatementSelect.build"]}
{"id": "C23", "title": "Materialisation respects references and query order in the plan is irrelevant", "statement": "Each referenced table is materialised exactly once, after every sampled table its own query uses, and the sampled rows do not depend on the order in which the plan lists its queries.", "quantifier": "every plan without cyclic sampled references, every listing order", "why_tests_cant": "all permutations of all plans", "anchors": ["subsetter/sampler.py:Sampler._materialization_order", "subsetter/sampler.py:Sampler._materialize_tables", "subsetter/sampler.py:Sampler._copy_results"]}
{"id": "C24", "title": "Every temporary-table reference resolves on databases that cannot reopen temporary tables", "statement": "On MySQL every reference to a sampled table while materialising or copying finds an existing copy, and no copy is used twice within one statement.", "quantifier": "every plan and compaction configuration", "why_tests_cant": "reference counts over all plans", "anchors": ["subsetter/sampler.py:Sampler._materialization_order", "subsetter/metadata.py:DatabaseMetadata.sql_build_context", "subsetter/sampler.py:Sampler._copy_results"]}
{"id": "C25", "title": "Temporary table names never collide", "statement": "No two temporary tables created in one run get the same name, for any requested names.", "quantifier": "every sequence of requested names", "why_tests_cant": "all sequences and all strings", "anchors": ["subsetter/sampler.py:TempTableCreator._generate_name"]}
{"id": "C26", "title": "Multiplied copies never collide", "statement": "With multiplier m two output values of a multiplied column are equal only if they stem from the same source value and the same copy; NULL stays NULL.", "quantifier": "all integers, all multipliers, all copies", "why_tests_cant": "all integers", "anchors": ["subsetter/sampler.py:_multiply_column"]}
{"id": "C27", "title": "Multiplicity keeps foreign keys intact", "statement": "When a referenced column is multiplied, every foreign-key column referring to it is multiplied too, so in every copy the child row refers to the same copy of its parent.", "quantifier": "every schema, plan and multiplicity configuration", "why_tests_cant": "all foreign-key graphs and column names", "anchors": ["subsetter/sampler.py:Sampler._get_multiplied_columns"]}
{"id": "C28", "title": "Computing the multiplied columns terminates with a closed set", "statement": "The computation of multiplied columns terminates for every schema (cyclic keys included); its result contains every configured and primary-key column of non-ignored tables and is closed under the propagation rule.", "quantifier": "every schema and configuration", "why_tests_cant": "termination over all inputs", "anchors": ["subsetter/sampler.py:Sampler._get_multiplied_columns"]}
{"id": "C29", "title": "Merged rows never overwrite or collide with existing rows", "statement": "In merge mode every inserted primary key of a non-passthrough table with an offset is greater than every primary key already present, and distinct source rows keep distinct keys.", "quantifier": "all existing keys and all non-negative source keys", "why_tests_cant": "all integers", "anchors": ["subsetter/sampler.py:DatabaseOutput.prepare", "subsetter/sampler.py:DatabaseOutput.output_result_set", "README.md"]}
{"id": "C30", "title": "Merge keeps foreign keys intact", "statement": "In merge mode a child row refers after shifting to exactly the shifted version of the parent row it referred to.", "quantifier": "every schema, plan and destination contents", "why_tests_cant": "all schemas including columns that are both primary and foreign key", "anchors": ["subsetter/sampler.py:DatabaseOutput.prepare", "subsetter/sampler.py:DatabaseOutput.output_result_set"]}
{"id": "C31", "title": "Compacted identifiers are exactly start_key .. start_key+N-1", "statement": "Compaction gives the N sampled rows of a table N distinct identifiers that fill the interval starting at start_key without gaps.", "quantifier": "every table contents and start key", "why_tests_cant": "all sizes", "anchors": ["subsetter/sampler.py:Sampler._materialize_tables", "subsetter/sampler.py:Sampler._copy_results", "README.md"]}
{"id": "C32", "title": "Compaction keeps foreign keys intact", "statement": "After compaction a child row holds the new identifier of exactly the parent row it referred to, no row is lost or duplicated, and NULL references stay NULL.", "quantifier": "every schema, compaction configuration and data", "why_tests_cant": "all schemas including chains of keys through non-compacted tables", "anchors": ["subsetter/sampler.py:Sampler._get_compact_columns", "subsetter/sampler.py:Sampler._copy_results", "README.md"]}
{"id": "C33", "title": "Every sampled row is written exactly once, in order, in bounded batches", "statement": "Writing a result set to a database flushes batches whose concatenation is the transformed result set, each row multiplied the configured number of times, no batch is empty and none exceeds the buffer size plus one.", "quantifier": "every result-set length, multiplier and filter", "why_tests_cant": "all lengths around all buffer boundaries", "anchors": ["subsetter/sampler.py:DatabaseOutput.output_result_set"]}
{"id": "C34", "title": "Conflict strategies do what they say", "statement": "With 'error' a primary-key clash aborts the batch and changes nothing; with 'skip' existing rows are untouched and only new keys are added; with 'replace' every written key holds the last written non-key values and all other rows are untouched.", "quantifier": "every table contents and every batch, including batches with internal duplicates", "why_tests_cant": "all contents and batches", "anchors": ["subsetter/sampler.py:ConflictInsert"]}
{"id": "C35", "title": "Re-running after a crash converges", "statement": "With 'skip' or 'replace', a run interrupted after any number of committed batches and then repeated in full leaves the destination table as an uninterrupted run would.", "quantifier": "every crash point, every result set", "why_tests_cant": "all crash points", "anchors": ["subsetter/sampler.py:DatabaseOutput.output_result_set", "subsetter/sampler.py:ConflictInsert"]}
{"id": "C36", "title": "Truncation and insertion respect destination foreign keys at every point in time", "statement": "Truncation empties every referencing table before the table it references, so no intermediate state has a dangling reference; insertion fills referenced tables first, so stopping after any batch leaves no dangling reference in the destination.", "quantifier": "every destination schema, contents and crash point", "why_tests_cant": "all crash points and schemas", "anchors": ["subsetter/sampler.py:DatabaseOutput.truncate", "subsetter/sampler.py:DatabaseOutput.insert_order", "subsetter/metadata.py:DatabaseMetadata.toposort"]}
{"id": "C37", "title": "Remapping never merges two tables", "statement": "If the database output is accepted, distinct planned tables are written to distinct destination tables.", "quantifier": "every remap function and plan", "why_tests_cant": "all regex rules", "anchors": ["subsetter/sampler.py:DatabaseOutput.__init__", "subsetter/sampler.py:DatabaseOutput._remap_table"]}
{"id": "C38", "title": "Qualified table names round-trip", "statement": "Splitting schema.table and joining again is the identity, and joining then splitting is the identity exactly when the schema contains no dot, so different tables never share a name unless a schema contains a dot.", "quantifier": "all strings", "why_tests_cant": "all strings", "anchors": ["subsetter/common.py:parse_table_name"]}
{"id": "C39", "title": "Every planned table is written", "statement": "Sampling into a database copies every planned table exactly once, referenced tables first; with create enabled no planned table is skipped.", "quantifier": "every destination schema and plan", "why_tests_cant": "all schemas", "anchors": ["subsetter/sampler.py:DatabaseOutput.insert_order", "subsetter/sampler.py:DatabaseOutput.create"]}
{"id": "C40", "title": "Column filters change only their columns and keep rows aligned with column names", "statement": "A filter chain outputs rows whose length matches its reported output columns; a column not named by any filter keeps its value under the same name.", "quantifier": "every filter chain, column list and row", "why_tests_cant": "all chains", "anchors": ["subsetter/filters.py:FilterColumns.filter_view", "subsetter/filters.py:FilterViewChain", "subsetter/filters.py:FilterOmit"]}
{"id": "C41", "title": "Misconfigured filters are rejected before sampling", "statement": "A filter naming a missing column, a duplicate column or no column is rejected when the chain is constructed.", "quantifier": "every filter configuration and column list", "why_tests_cant": "all configurations", "anchors": ["subsetter/filters.py:_validate_and_index", "subsetter/filters.py:FilterOmit", "subsetter/sampler.py:Sampler._validate_filters"]}
{"id": "C42", "title": "Anonymised columns carry no information about the source value", "statement": "If a chain nulls, omits, replaces by a constant or by generated values a column that no earlier filter reads, the output is the same whatever the source value of that column was.", "quantifier": "every chain, every pair of rows differing in that column, every generator outcome", "why_tests_cant": "non-interference is a relation between all pairs of runs", "anchors": ["subsetter/filters.py:FilterColumns.filter_view", "subsetter/filters.py:FilterPlugin", "subsetter/filters.py:FilterMultiplex"]}
{"id": "C43", "title": "Multiplex applies exactly the first matching filter", "statement": "A multiplex filter applies the filter of the first condition its column satisfies and no other, leaves the row unchanged if none matches, and never changes the column list.", "quantifier": "every condition list and row", "why_tests_cant": "all condition lists", "anchors": ["subsetter/filters.py:FilterMultiplex"]}
{"id": "C44", "title": "Later configuration files override earlier ones key by key", "statement": "Merging configuration files keeps every setting the later file does not mention, takes the later file's value where both define a leaf, and merging a file with itself changes nothing.", "quantifier": "all nested mappings of any depth", "why_tests_cant": "unbounded nesting", "anchors": ["subsetter/__main__.py:_get_config"]}
{"id": "C45", "title": "Searching a plan finds every nested model exactly once", "statement": "The search over a plan yields each model reachable through fields, lists and mappings exactly once and terminates, with sharing and cycles allowed.", "quantifier": "every object graph", "why_tests_cant": "all object graphs", "anchors": ["subsetter/common.py:pydantic_search"]}
{"id": "C46", "title": "Sequence state after sampling is ahead of every written key", "statement": "On PostgreSQL the next generated identifier after sampling is larger than every identifier written, and the sequence never moves backwards.", "quantifier": "every starting sequence state and written values", "why_tests_cant": "all histories of the sequence", "anchors": ["subsetter/sampler.py:_autoincrement_update", "subsetter/sampler.py:DatabaseOutput.output_result_set"]}
{"id": "C47", "title": "Connection settings come from the config first, then the environment, then defaults, consistently", "statement": "Each connection parameter is the configured one if given, else the environment's, else the default, and the dialect used for SSL and session settings is the dialect of the connection URL.", "quantifier": "every configuration and environment", "why_tests_cant": "all combinations", "anchors": ["subsetter/common.py:database_url", "subsetter/common.py:DatabaseConfig"]}
{"id": "C48", "title": "The sample is consistent even if the source changes while sampling", "statement": "A sample taken while the source database is concurrently modified satisfies its foreign keys.", "quantifier": "every schedule of source commits between the sampler's statements", "why_tests_cant": "all interleavings", "anchors": ["subsetter/sampler.py:Sampler._materialize_tables", "subsetter/sampler.py:Sampler._copy_results", "subsetter/common.py:DatabaseConfig.database_engine"]}
{"id": "C49", "title": "A written plan reads back as the same plan", "statement": "A plan dumped to a file and loaded again denotes the same queries.", "quantifier": "every plan", "why_tests_cant": "all plans", "anchors": ["subsetter/__main__.py:_main_plan", "subsetter/__main__.py:_main_sample", "subsetter/plan_model.py:SubsetPlan"]}
{"id": "C50", "title": "Directory output writes one JSON object per row and copy", "statement": "The directory output writes, for each table, one line per sampled row and copy in order, mapping each output column to its value.", "quantifier": "every result set", "why_tests_cant": "all lengths", "anchors": ["subsetter/sampler.py:DirectoryOutput.output_result_set"]}
{"id": "C51", "title": "Index names of temporary tables never collide", "statement": "The indexes created on the temporary tables of one run all have different names, and no index name equals the name of a temporary table.", "quantifier": "every sequence of temporary tables and indexes", "why_tests_cant": "table and column names are arbitrary strings and may imitate the numbering scheme", "anchors": ["subsetter/sampler.py:TempTableCreator"]}
{"id": "C52", "title": "Temporary names stay distinct on case-insensitive databases", "statement": "Two temporary tables of one run have names that differ even when letter case is ignored, as MySQL on some platforms does.", "quantifier": "every sequence of source tables", "why_tests_cant": "all pairs of table names", "anchors": ["subsetter/sampler.py:TempTableCreator"]}
{"id": "C53", "title": "Relationships marked half unique are", "statement": "If the planner marks a join as half unique then, given that the primary keys and unique constraints of the source hold, each row on one of the two sides matches at most one row on the other.", "quantifier": "every schema, foreign key and database content", "why_tests_cant": "composite and partial keys, all table contents", "anchors": ["subsetter/planner.py:_plan_table"]}
{"id": "C54", "title": "Zeroing keeps the type and forgets the value", "statement": "The zero filter replaces a value by the zero of its type, the same one for all values of that type; NULL stays NULL, zeroing twice changes nothing more, and only values of unsupported types are refused.", "quantifier": "every value", "why_tests_cant": "all values of all types", "anchors": ["subsetter/filters.py:FilterZero"]}
{"id": "C55", "title": "Created tables mirror the source", "statement": "create adds a destination table exactly for the planned tables that have none, with the columns, primary key columns and unique constraints of the source, and with every foreign key leading to the destination of the table it led to; a foreign key to an unplanned table makes create fail.", "quantifier": "every source schema, destination schema, remap function and plan", "why_tests_cant": "all schemas and remap rules", "anchors": ["subsetter/sampler.py:DatabaseOutput.create", "subsetter/metadata.py:DatabaseMetadata.track_new_table"]}
{"id": "C56", "title": "No row is sampled more often than it occurs in the source", "statement": "For every plan made by the planner the sample of a table holds each row at most as often as the source table does, however many paths of foreign keys lead to it; primary keys and unique constraints that hold in the source therefore hold in the sample.", "quantifier": "every schema, configuration, database content and random choice", "why_tests_cant": "joins over all schemas and contents; duplicates only appear for particular join shapes", "anchors": ["subsetter/plan_model.py:SQLStatementSelect.build", "subsetter/plan_model.py:SQLStatementUnion.build", "subsetter/planner.py:Planner._plan_table"]}
{"id": "C57", "title": "A connection is as secure as asked for", "statement": "If the configuration, or else the environment, asks for an encrypted connection or for verification of the server, the connection is opened with at least that; without either, nothing is added.", "quantifier": "every configuration and environment", "why_tests_cant": "all combinations of settings from two sources", "anchors": ["subsetter/common.py:DatabaseConfig.SSLConfig.get_connect_args", "subsetter/common.py:DatabaseConfig.database_engine"]}
{"id": "C58", "title": "A plain run leaves exactly the sample", "statement": "With no filters, compaction, multiplicity or merging, a run of `sample` that finishes without an error and that truncates (or finds the destination tables empty) leaves in the destination of every copied table (with strategy `error`, or if the sampled rows differ in the destination's primary key) exactly the rows the plan selects from the source, each as often and in the same order; loaded tables that are not planned are left as truncation left them and all other tables as they were.", "quantifier": "every schema, plan, remapping, database content, conflict strategy, dialect and random choice", "why_tests_cant": "relates the whole pipeline, from loading metadata to the last commit, to the meaning of the plan, for all of its inputs", "anchors": ["subsetter/sampler.py:Sampler.sample", "subsetter/sampler.py:Sampler._copy_results", "subsetter/sampler.py:DatabaseOutput.output_result_set"]}
{"id": "C59", "title": "Plan and plain run into an empty database succeed", "statement": "If the planner makes a plan for a schema (no ignored foreign keys, dependencies included) and tables do not refer to each other in a circle, then `sample` with `create` into a database without tables finishes without an error, creates every planned table and fills it with its sample.", "quantifier": "every schema, planner configuration, source content satisfying its primary keys, remapping to different names, dialect", "why_tests_cant": "absence of every error of the whole pipeline over all schemas and configurations", "anchors": ["subsetter/planner.py:Planner.plan", "subsetter/sampler.py:Sampler.sample", "subsetter/sampler.py:DatabaseOutput.create"]}
{"id": "C60", "title": "The destination has no dangling reference at any time of a run", "statement": "If source and destination satisfy their foreign keys and the destination's foreign keys are those of the source, then after each commit of a run that samples a plan of the planner the destination satisfies its foreign keys, even if the run fails or is interrupted.", "quantifier": "every schema, configuration, content and point of interruption", "why_tests_cant": "quantifies over all intermediate committed states of all runs", "anchors": ["subsetter/sampler.py:Sampler.sample", "subsetter/sampler.py:DatabaseOutput.truncate", "subsetter/sampler.py:Sampler._copy_results"]}
{"id": "C61", "title": "Every sampled row arrives, transformed", "statement": "For every configuration of filters, compaction, multiplicity and merging, a run with strategy `error` that finishes leaves in each destination table the rows that were there (after truncation) followed by the sampled rows, each transformed by compaction, the table's filters, multiplication and the merge offset, in this order, `multiplier` times if the table is multiplied and once otherwise.", "quantifier": "every configuration, schema, plan and content", "why_tests_cant": "composition of all transformations for arbitrary configurations", "anchors": ["subsetter/sampler.py:Sampler.sample", "subsetter/sampler.py:DatabaseOutput.output_result_set"]}
{"id": "C62", "title": "A failed run leaves a prefix", "statement": "If copying fails, there is a table in insertion order at which it failed: the tables before it hold everything a complete run would have given them, it holds the complete batches written before the failure, and the tables after it are untouched.", "quantifier": "every run with every cause of failure", "why_tests_cant": "all failure points of all runs", "anchors": ["subsetter/sampler.py:Sampler._copy_results", "subsetter/sampler.py:DatabaseOutput.output_result_set"]}
{"id": "C63", "title": "A refused configuration costs nothing", "statement": "If a run fails because of its configuration or its plan (unknown filter columns, remapping, multiplicity, compaction, cycles, missing tables or columns), no row of the destination has been deleted or written.", "quantifier": "every configuration, plan and content", "why_tests_cant": "all causes of failure, and the order of checks relative to all effects", "anchors": ["subsetter/sampler.py:Sampler.sample", "subsetter/sampler.py:Sampler._validate_filters", "subsetter/sampler.py:Sampler._get_compact_columns"]}
{"id": "C64", "title": "Planned tables are closed under the references in use", "statement": "Every table that a planned table refers to by a foreign key in use (declared, added or inferred, and not ignored) is planned too. The only exception are tables the user ignores, when dependencies are not included, referred to by tables that are not passed through. Planned tables refer to each other in a circle only if all tables of the circle are passed through.", "quantifier": "every schema and planner configuration for which planning succeeds", "why_tests_cant": "closure over all schemas, selections and combinations of ignored and extra foreign keys", "anchors": ["subsetter/planner.py:Planner._check_ignore_tables", "subsetter/planner.py:Planner._check_passthrough_tables", "subsetter/planner.py:Planner._plan_internal"]}
{"id": "C65", "title": "One command or two give the same destination", "statement": "`subset` leaves the same contents in the destination as `plan` with an output file followed by `sample` with that file: the file can be read, and without transformations of rows every table ends up with the same rows in the same order, whether tables exist before or are created.", "quantifier": "every schema, planner configuration, source content, destination content, conflict strategy, truncation or not, and every order of keys in the plan file", "why_tests_cant": "equivalence of two commands over all plans; the order of queries changes on the way through the file", "anchors": ["subsetter/__main__.py:_main_plan", "subsetter/__main__.py:_main_sample", "subsetter/__main__.py:_main_subset"]}
{"id": "C66", "title": "A directory holds exactly the files of the planned tables that were written", "statement": "Sampling to a directory writes one file per planned table and touches no other: after success the file of each planned table has the lines of its sampled, compacted, filtered and multiplied rows whatever was in it before, files of tables that are not planned any more stay, also with truncate. After a failure a prefix of the plan's tables is complete, the next file holds its first lines or is unchanged, and nothing else changed. Without transformations every plan of the planner can be sampled to a directory and the files hold exactly the sample.", "quantifier": "every schema, source content, plan, configuration and earlier content of the directory", "why_tests_cant": "all plans and all failure points; leftovers of earlier runs are rarely looked at", "anchors": ["subsetter/sampler.py:DirectoryOutput", "subsetter/sampler.py:Sampler.sample", "subsetter/sampler.py:Sampler._copy_results"]}
{"id": "C67", "title": "Patterns select what they say, and names of tables are found again as patterns", "statement": "A pattern of `select` matches exactly the names it stands for by the documented rules of `*`, `?`, `[seq]` and `[!seq]` (a `[` that is not closed stands for itself); a pattern without special characters selects one table. The sampler uses the names of planned tables as patterns: a plan of the planner can be sampled if no table of the source has a bracket in its name that is closed. (For a table with such brackets in its name this is false: it is planned, but sampling raises KeyError, after the destination was truncated.)", "quantifier": "every pattern, name, schema and plan", "why_tests_cant": "all patterns and all names; tests use plain names and `*`", "anchors": ["subsetter/metadata.py:DatabaseMetadata.from_engine", "subsetter/sampler.py:Sampler.sample", "subsetter/filters.py:MultiplexCondition.match"]}
{"id": "C68", "title": "Conditions of a multiplex filter mean what their operators say", "statement": "For a condition of a `multiplex` filter the operators `=`, `<>`, `<`, `>`, `<=`, `>=`, `in`, `not in`, `is`, `is not`, `matches` hold exactly when the relation they name holds between the value of the row and the configured one; opposite operators give opposite answers; NULL equals only NULL. The filter of the first condition that holds is applied, and a row fails exactly if a condition met before does not suit its value (NULL with an order comparison or `matches`, a number with a string). (False: that a condition suiting no value is rejected when the filter is set up; it makes the run fail after truncation.)", "quantifier": "every value, condition, list of conditions and row", "why_tests_cant": "the space of values of mixed types against operators is unbounded, and the cases that fail are those nobody puts in a fixture", "anchors": ["subsetter/filters.py:MultiplexCondition.match", "subsetter/filters.py:FilterMultiplex.filter_view"]}
{"id": "C69", "title": "Anonymised columns hold only values their filter may write", "statement": "If a filter `null`, `constant`, `random_int` or `random_string` names a column and no later filter of the table does, then after a run every row of the table in the destination has in that column NULL, the configured constant, an integer between low and high, or a string of the given length over the given alphabet, if the table was emptied or held only such values before, for every conflict strategy; and in the latter case this holds at any time of any run, whether it fails or not. With multiplied or merged rows this holds if the filter writes no integers or if the column is neither a key nor listed as to be multiplied. (False: for key columns that are multiplied or shifted the range is that of the numbers before; and a filter that is accepted need not get every row through, as `random_int` with low > high fails at the first row.)", "quantifier": "every source, plan, configuration, generator of random numbers, conflict strategy and point of time", "why_tests_cant": "random output over all generator states and all intermediate states of the destination", "anchors": ["subsetter/filters.py:FilterRandomInt", "subsetter/filters.py:FilterRandomString", "subsetter/filters.py:FilterNull", "subsetter/filters.py:FilterConstant", "subsetter/sampler.py:DatabaseOutput"]}
{"id": "C70", "title": "percent and amount select the share and number of rows asked for", "statement": "For a target that no table planned before refers to: `percent: q` selects each row that meets the target's other options (sql, like, in) with probability q/100, so q percent of those rows on average (up to the resolution of the database's random()); `amount: n` selects exactly n of the rows that meet the other options, or all of them if there are fewer, each in equally many of the orders ORDER BY random() may give. (False on SQLite: there random() is a signed 64 bit integer, so `random() < threshold` keeps half of the rows whatever the percentage.)", "quantifier": "every schema, configuration, source, percentage between 0 and 100, resolution of random(), amount", "why_tests_cant": "a statement about all outcomes of random draws; a test sees a handful of them", "anchors": ["subsetter/plan_model.py:SQLWhereClauseRandom", "subsetter/plan_model.py:SQLStatementSelect.build", "subsetter/planner.py:_plan_table"]}
{"id": "C71", "title": "The configuration is accepted exactly if it is one, and misspelt options are refused", "statement": "Reading the configuration files gives a configuration exactly if the merged document has the sections, options, types and words of the reference, and then every option has the value written or its documented default; a document has at most one meaning. An unknown option at the top level, in the planner's section, its targets, constraints, ignored and extra foreign keys, in the sampler's section, its multiplicity, compaction, directory output and remappings is refused whatever else the document says. A filter is a multiplex or has a known word as op, and columns. Extra foreign keys of an accepted configuration have as many distinct columns on both sides, and a plan made from it can be written to a file and read again as the same plan. (False: that every misspelt option is refused; in `source`, `ssl`, a database as output, filters and conditions unknown options are ignored, so a misspelt conflict_strategy means `error` and a misspelt ssl.require means no TLS. The reference file subsetter.example.yaml is not accepted either: its filter random_uuid is called uuid in the code, and its random_string has no columns.)", "quantifier": "every list of files, every conversion of scalars, every key", "why_tests_cant": "the space of documents and of misspellings is unbounded; a test checks one typo in one place", "anchors": ["subsetter/config_model.py", "subsetter/common.py:DatabaseConfig", "subsetter/filters.py:FilterConfig", "subsetter/__main__.py:_get_config"]}
{"id": "C72", "title": "Names given to created indexes and foreign keys never collide", "statement": "When missing tables are created in the destination, every index of the source table is created, and no two indexes get the same name within a schema, whatever the tables are called; foreign keys keep their names, which are different within a schema if they were in the source and tables of different schemas are not joined in one. (False: on joining schemas, or when copies are created beside the source under other names, two foreign keys get the same name, which MySQL refuses; and index names of tables whose name has 48 characters or more exceed the limit of PostgreSQL.)", "quantifier": "every plan, remapping, source schema, destination and number of indexes", "why_tests_cant": "collisions depend on the combination of all names of a schema with a remapping", "anchors": ["subsetter/sampler.py:DatabaseOutput.create"]}
{"id": "C73", "title": "From the configuration files to the data: what `subset` leaves and what its exit status means", "statement": "If the configuration files merge to a valid configuration whose planner can plan the source, includes dependencies and ignores no foreign keys, and whose sampler writes untransformed rows to a database without the planned tables, then `subset --create` exits with 0, every planned table exists in the destination under its remapped name with the same columns and keys, and holds exactly its sample. Foreign keys hold in the destination after every commit, even if the command fails and whatever filters are applied to other columns. With a directory as output the file of every planned table holds its sample and other files are untouched. `plan` followed by `sample` leaves the same as `subset`. If `subset` exits with 0, the files were a valid configuration, a plan was made and the run to the named output ended without an error; if the files are not a valid configuration every command exits with 1.", "quantifier": "every list of files, environment, pair of databases, contents, remapping, random choice", "why_tests_cant": "spans every component; a test fixes one configuration and one pair of databases", "anchors": ["subsetter/__main__.py:main", "subsetter/__main__.py:_main_subset", "subsetter/__main__.py:_main_sample", "subsetter/planner.py:Planner.plan", "subsetter/sampler.py:Sampler.sample"]}
{"id": "C74", "title": "References survive compaction, multiplication and merging", "statement": "If source and destination satisfy their foreign keys and those of the destination are those of the source, then after each commit of a run that compacts identifiers, multiplies rows and merges them past the destination's identifiers, in any combination, the destination satisfies its foreign keys: a copy of a row refers to the same copy of the row it referred to.", "quantifier": "every schema, combination of compaction, multiplicity and merge settings, content and point of interruption", "why_tests_cant": "the three transformations interact and references are rewritten by rules of each; a test fixes one schema and one combination", "anchors": ["subsetter/sampler.py:Sampler._get_compact_columns", "subsetter/sampler.py:Sampler._get_multiplied_columns", "subsetter/sampler.py:DatabaseOutput.prepare", "subsetter/sampler.py:Sampler._copy_results"]}
{"id": "C75", "title": "The SQL that is built returns what the plan says", "statement": "For every plan the planner makes from a source with unique primary keys and existing key columns, and targets that name existing columns, a run that executes the SQL statements subsetter builds - joins with GROUP BY, correlated EXISTS, outer joins with NULL conditions, temporary tables with an identifier column, their copies for databases that cannot open them twice, row numbers and lookups for compaction - has the same schema, commits, written rows and error as the run in which every query is replaced by what the plan asks for: each row at most once, rows that satisfy the conditions and match the sampled tables. Every statement of a plan, also one with subqueries, returns exactly the rows the plan describes.", "quantifier": "every plan, source, random choice, configuration of compaction, multiplicity and merging, database with or without reopening of temporary tables", "why_tests_cant": "the statements are nested and depend on key uniqueness, names and NULLs of all rows; a test fixes one database", "anchors": ["subsetter/plan_model.py:SQLStatementSelect.build", "subsetter/plan_model.py:SQLWhereClause", "subsetter/metadata.py:DatabaseMetadata.sql_build_context", "subsetter/sampler.py:Sampler._materialize_tables", "subsetter/sampler.py:Sampler._copy_results"]}
{"id": "C76", "title": "Scrubbed values leave no trace", "statement": "If every column that is to be hidden is replaced by a filter that does not look at hidden values, and no hidden column is part of a key, a foreign key (declared, inferred or extra), a constraint or a target, then two sources that differ only in hidden values give the same run: the same rows written in the same order, the same commits, the same files and the same error, whatever the filters, compaction, multiplicity, merging and output. A table without a primary key and a hidden column without a filter do tell.", "quantifier": "every pair of sources that differ only in hidden columns, every planner and sampler configuration, every database and directory state, every random choice", "why_tests_cant": "noninterference speaks of pairs of runs and all possible hidden values; a test compares the output of one", "anchors": ["subsetter/sampler.py:Sampler.sample", "subsetter/sampler.py:Sampler._copy_results", "subsetter/sampler.py:DirectoryOutput", "subsetter/filters.py", "subsetter/planner.py:Planner.plan", "subsetter/plan_model.py:SQLStatementSelect.build"]}
{"id": "C77", "title": "A truncating run starts afresh", "statement": "What a run with `--truncate` does - batches written, schema, error, and the contents of every table it loads - does not depend on what the destination held, whatever the filters, compaction, multiplicity and merging; tables it does not load keep their rows. So running again with the same random choices changes nothing, and a run after an interrupted or failed one leaves what it would have left without it. Without truncation this is false: merging adds the sample again.", "quantifier": "every pair of destination states, every schema, plan, configuration and random choice", "why_tests_cant": "tests start from one or two states; independence of the former contents speaks of all pairs, including those left by a failure at any point", "anchors": ["subsetter/sampler.py:DatabaseOutput.truncate", "subsetter/sampler.py:DatabaseOutput.prepare", "subsetter/sampler.py:DatabaseOutput.output_result_set", "subsetter/sampler.py:Sampler.sample"]}
{"id": "C78", "title": "Runs do not fail with key conflicts", "statement": "A run of a plan made by the planner never fails with a violation of a primary key, whether identifiers are compacted, rows are multiplied, or the sample is merged into what the destination holds, in any combination, provided that for tables written with the conflict strategy `error`: the primary key has the same columns on both sides and no filter changes it; if rows are multiplied, so is an integer column of the key; and the destination table is empty or truncated, or merged with an integer key (or a key column that refers to one) whose values in the source are not negative. Without the conditions it is false: keys exempt from multiplication meet their copies, and keys compacted from a negative start meet what is there.", "quantifier": "every source, destination state, plan of the planner, configuration meeting the conditions and random choice", "why_tests_cant": "whether new identifiers (compacted, shifted past the largest one, interleaved by the multiplier) ever meet depends on all values of all rows; tests cover a handful of values", "anchors": ["subsetter/sampler.py:DatabaseOutput.output_result_set", "subsetter/sampler.py:DatabaseOutput.prepare", "subsetter/sampler.py:Sampler._get_multiplied_columns", "subsetter/sampler.py:Sampler._get_compact_columns"]}
{"id": "C79", "title": "Transforming runs succeed", "statement": "A run of a plan made by the planner finishes without an error, whatever it does with filters, compaction of identifiers, multiplication and merging in any combination, provided that: both databases have the planned tables and columns; filters fit their tables and do not fail on their rows; multiplied and shifted columns are integers that filters leave alone; compacted keys are not themselves foreign keys; primary keys are written and, for tables written with the conflict strategy `error`, do not meet (C78). In particular a run with filters that never fail and leave primary keys alone fills an empty database without an error. Without the conditions it is false: a filter that puts text into a multiplied key, or omits a key that is replaced, ends the run after part of it was written.", "quantifier": "every source, destination state, plan of the planner, configuration meeting the conditions and random choice", "why_tests_cant": "a run can stop at any row of any table: each step (filter, shift, multiplication, lookup of compacted values, flush) raises exceptions of its own, and which combinations of options and values raise none is a statement about all rows", "anchors": ["subsetter/sampler.py:Sampler.sample", "subsetter/sampler.py:Sampler._copy_results", "subsetter/sampler.py:DatabaseOutput.output_result_set", "subsetter/filters.py:FilterViewChain"]}
{"id": "C80", "title": "Undeclared references survive", "statement": "After a run that succeeds, every foreign key the planner used - declared in the source, inferred from column names, or listed in `extra_fks` - holds between the two tables in the destination, although the destination need not declare it: every row with a reference finds its row, provided it did so in the source and (unless truncated) in the destination before, and filters leave the columns alone. With compaction, multiplication and merging it holds of the keys the sampler knows, that is declared ones and those it infers itself. Of keys only the planner knows it is false: with `infer_foreign_keys` set for the planner alone, or with `extra_fks`, compaction renumbers the rows referred to and leaves the references as they were.", "quantifier": "every source, destination state, plan of the planner, key, configuration and random choice", "why_tests_cant": "databases do not check undeclared references, so nothing fails when they break; a test sees one schema, while inference depends on all tables loaded and planner and sampler infer separately", "anchors": ["subsetter/metadata.py:DatabaseMetadata.infer_missing_foreign_keys", "subsetter/planner.py:Planner._add_extra_fks", "subsetter/sampler.py:Sampler.sample", "subsetter/sampler.py:Sampler._get_compact_columns"]}
{"id": "C81", "title": "Inferring is declaring", "statement": "A run with `infer_foreign_keys` that creates no tables does exactly what a run without it does of a source in which the inferred keys are declared: the same batches, contents, order and errors, with a database or a directory as output; such a source always exists. The same holds of planning without dependencies. It is false otherwise: tables created do not get the inferred keys, and inferred keys do not make the planner load the tables referred to.", "quantifier": "every source, plan, configuration, destination state and random choice", "why_tests_cant": "it compares two runs for all schemas; tests of inference look at the keys of a few tables and not at everything derived from them (multiplied and compacted columns, offsets, order of queries)", "anchors": ["subsetter/metadata.py:DatabaseMetadata.infer_missing_foreign_keys", "subsetter/sampler.py:Sampler.sample", "subsetter/planner.py:Planner._plan_internal"]}
{"id": "C82", "title": "Unique stays unique and filled stays filled", "statement": "Columns that distinguish the rows of a table of the source (a UNIQUE constraint: no two rows agree in all of them, rows with NULL aside) distinguish the rows of the table they are copied to, after every commit of every run, failed or not, whatever the conflict strategy and whether identifiers are compacted, rows multiplied or everything is merged. This needs: no filter touches the columns; if rows are multiplied, one of the columns is a multiplied integer column; and the table was empty or truncated, or one of the columns is shifted past what it held, or rows that agree in them are the same rows by primary key and the strategy is not `error`. Likewise a column that never is NULL in the source and in the destination is never NULL. Tables created by a run carry the unique constraints of the source, and these hold. Without these conditions it is false: multiplied rows, filters and merging can produce equal values.", "quantifier": "every source, destination state, plan of the planner, columns, configuration, random choice, and moment of the run", "why_tests_cant": "the destination's uniqueness depends on all rows of the sample, on injectivity of the chain compact-multiply-shift for every value, and on every intermediate state; a test checks one table after one run", "anchors": ["subsetter/sampler.py:DatabaseOutput.create", "subsetter/sampler.py:DatabaseOutput.output_result_set", "subsetter/sampler.py:Sampler._get_compact_columns", "subsetter/sampler.py:_multiply_column", "subsetter/sampler.py:DatabaseOutput.prepare"]}
{"id": "C83", "title": "Destinations with constraints accept what is written", "statement": "A destination that checks its own constraints after each deleted table and each row inserted makes no difference to a run that, if it committed every row by itself, would never violate them: same states, same batches, same outcome, whatever the size of the write buffer. In particular a destination that enforces foreign keys and unique constraints accepts a whole run, also while tables are compacted, multiplied, merged and truncated, under the conditions that keep references (C74) and unique values (C82) intact; tables the run creates with the constraints of the source accept it if keys and unique columns are not filtered. Whatever is checked, the run is either the one without checks or stops with an integrity error in a state that run goes through, and no state that violates the checks is ever committed.", "quantifier": "every check on the contents, source, destination state, plan, configuration, random choice and buffer size", "why_tests_cant": "a test writes a handful of rows to one database; acceptance depends on the order of tables and rows and on every intermediate state within a batch, not just on committed ones", "anchors": ["subsetter/sampler.py:DatabaseOutput.output_result_set", "subsetter/sampler.py:DatabaseOutput.insert_order", "subsetter/sampler.py:DatabaseOutput.truncate", "subsetter/sampler.py:Sampler.sample"]}
{"id": "C84", "title": "Results do not depend on the write buffer", "statement": "The number of rows the sampler sends to the destination at a time (`DESTINATION_BUFFER_SIZE`) affects neither whether a run ends without an error nor, if it does, the tables, their contents, and the rows sent to each table in order, with every conflict strategy. Whatever the number, and also if the run fails, every state committed to the destination is one of those of the run that commits after every single row. What a failed run leaves does depend on it: the batch with the failing row is lost.", "quantifier": "every source, destination state, plan, configuration and any two buffer sizes", "why_tests_cant": "the buffer only matters in large tables (over 1024 rows by default), and rows of one batch can conflict with each other; tests compare a few row counts, the claim is about all row sequences and all points at which a run can fail", "anchors": ["subsetter/sampler.py:DESTINATION_BUFFER_SIZE", "subsetter/sampler.py:DatabaseOutput.output_result_set", "subsetter/sampler.py:Sampler._copy_results"]}
{"id": "C85", "title": "After a run into PostgreSQL, rows can be added with generated keys", "statement": "If a run into PostgreSQL ends without an error, the next value of the sequence behind the key of a copied table is larger than every key in that table, so rows can be added without naming a key. This holds of tables created by the run, of tables that were empty or are emptied by it, of merged tables whatever session the run uses, and of others if the session knows the last value of the sequence; keys may be filtered, compacted and multiplied. Sequences of other tables and other databases are not touched, and keeping track of them does not change what is copied. It does not hold of tables that keep rows and are not merged: the sequence can fall back; and a failing run leaves the sequence behind rows it committed.", "quantifier": "every source, destination state, plan, configuration, state of the sequences and values of currval", "why_tests_cant": "whether a later insert fails depends on the largest key ever written, on what the destination held and on the session used; tests insert into one empty table", "anchors": ["subsetter/sampler.py:_autoincrement_update", "subsetter/sampler.py:_autoincrement_get", "subsetter/sampler.py:DatabaseOutput.output_result_set", "subsetter/sampler.py:Sampler._copy_results"]}
{"id": "C86", "title": "Which files the commands read and write", "statement": "`plan` exits with 0 exactly if its configuration files can be read, a plan is made and the file named by -o can be written. Then the file holds the plan and no other file has changed; without -o the plan is printed and no file has changed. If no plan is made, for whatever reason, no file changes, in particular an older plan stays. `sample` and `subset` never change a file apart from their output. Without -c the configuration is read from subsetter.yaml. `plan -o f` followed by `sample -p f` with the same configuration leaves in the destination what `subset` leaves; the same plan is used when it is piped, unless statements are logged. Standard input is read once: with configuration and plan both from it, or if it is the last of the configuration files and named before, the command exits with 1 and nothing is sampled. It is false that the two commands fit together by default: `plan` prints the plan while `sample` takes plan.yaml, possibly an old one; `plan -o -` writes a file named - while `sample -p -` reads standard input; with -vvv logged statements are printed in front of the plan; and if writing breaks off the older plan is lost. If standard input is named twice as configuration, everything named before the second time is dropped without a message.", "quantifier": "every file contents, arguments after parsing, source, destination and outcome of writing", "why_tests_cant": "it is about what is not touched in all failing runs and about combinations of arguments of two commands; the tests call the planner and the sampler without files", "anchors": ["subsetter/__main__.py:_open_config_path", "subsetter/__main__.py:_get_config", "subsetter/__main__.py:_main_plan", "subsetter/__main__.py:_main_sample", "subsetter/__main__.py:_main_subset", "subsetter/__main__.py:main"]}
{"id": "C87", "title": "Conflict strategies on tables with unique constraints beside the primary key", "statement": "Whatever the conflict strategy and the database (MySQL, PostgreSQL, SQLite), the primary key and all unique constraints of a table hold after each batch if they held before, rows that collide with no row of the batch stay as they are, and a batch that collides with nothing is added whole. With `skip` no conflict is an error, no row present changes, and a row is left out only if it has the primary key or the non-NULL values of a unique constraint of a row that is there. With `error`, and with `replace` except on MySQL, a batch that is accepted has the same effect as if the primary key were the only constraint. If the conditions for intact references (C74) and unique values (C82) are met, in particular for created tables, unique constraints make no difference to a run on any database unless a primary key is taken. It is false that `skip` leaves out only rows whose primary key is taken, as the README says of merged passthrough tables: a row with a new primary key and a mail address that is taken disappears without an error, and rows that refer to it dangle. It is false that `replace` writes the sampled row: on MySQL the row that has the mail address is overwritten under its own primary key and the sampled primary key is missing, while PostgreSQL and SQLite report an error.", "quantifier": "every table, set of unique constraints, batch and earlier contents; every configuration, source and destination of a run", "why_tests_cant": "the tests use tables with a primary key only and one database; the claims are about every combination of constraints, rows and databases", "anchors": ["subsetter/sampler.py:ConflictInsert", "subsetter/sampler.py:DatabaseOutput", "README.md:Merging", "subsetter.example.yaml:conflict_strategy"]}
{"id": "C88", "title": "Exactly what can be planned, and exactly which tables a plan has", "statement": "A plan has exactly the passthrough tables that were loaded and the tables linked to a target by used foreign keys, followed in either direction, among loaded tables that are neither ignored nor passed through. Without table constraints, planning succeeds exactly if all configured names have the form schema.table, every target is loaded and neither ignored nor passed through, no table linked to a target refers to itself in a circle of such tables, no table that is not ignored refers to an ignored one (if dependencies are included), passthrough tables refer to passthrough tables only, and used keys refer to loaded tables. In particular, as the README promises, selected targets of a database without foreign key cycles can always be planned; targets may be reachable from each other.", "quantifier": "every database, selection and planner configuration", "why_tests_cant": "tests plan a handful of schemas; that nothing else stops planning and that no table is forgotten or added is a claim about all of them", "anchors": ["subsetter/planner.py:Planner.plan", "subsetter/planner.py:_solve_order", "subsetter/solver.py:order_graph", "README.md:Planner"]}
{"id": "C89", "title": "Plans are reproducible", "statement": "A plan does not depend on the order in which the database lists its tables, the foreign keys and unique constraints of a table, nor on the order in which the configuration lists targets, selected, ignored and passthrough tables (sets, whose iteration order differs between runs): each table gets the same query, sampled tables come in the same order, and the same tables are passed through; only these may come in another order. Planning fails for all such orders or for none.", "quantifier": "every database and planner configuration, and all orders of listing them", "why_tests_cant": "a test sees one order per run; that every order gives the same statements, including the order of joins and of tables, is a claim about all permutations at once", "anchors": ["subsetter/planner.py:_plan_internal", "subsetter/planner.py:_plan_table", "subsetter/metadata.py:ForeignKey", "subsetter/metadata.py:from_engine", "subsetter/solver.py:order_graph"]}
{"id": "C90", "title": "Loosening a configuration loses no rows", "statement": "If a configuration is made more generous (a target gets `all`, a larger amount or a filter accepting more rows, constraints are dropped) or the source gains rows the targets still choose, every row sampled before is sampled again, in every table, for the same random draws. Tables and their order stay the same, and what happens to tables that do not feed a table directly or through others does not affect its rows.", "quantifier": "every database, every pair of planner configurations on it with the same target names, and all samples of the two plans", "why_tests_cant": "rows of a table depend on those of all tables before it; that no combination of options, keys and rows makes one choice push out another row is a claim about pairs of runs over all databases", "anchors": ["subsetter/planner.py:_plan_internal", "subsetter/planner.py:_plan_table", "subsetter/config_model.py:PlannerConfig"]}
{"id": "C91", "title": "Merging further samples into a database that has the same tables", "statement": "With `merge` on, no further transformation and conflict strategy `error`, a sample can be added to a database that has the planned tables under their remapped names and already holds rows, for example earlier samples, if the tables that are not passed through have one natural number as primary key and references lead to such keys or to tables passed through: the run succeeds, foreign keys hold after every commit, no row that was there changes or goes, tables not planned stay as they are, and every sampled row is appended with its key moved by one more than the largest key its table held and its references moved like the keys they refer to. Tables passed through get the rows with keys they did not hold. The same holds again for the database so obtained, so any number of samples, by any plans, can be merged one after the other.", "quantifier": "every pair of databases, their contents, planner configuration, remapping and random choices; every sequence of runs", "why_tests_cant": "a test merges a few samples into one database; that keys never collide and references stay together however often and in whatever order plans are merged needs an invariant of the destination", "anchors": ["subsetter/sampler.py:DatabaseOutput.prepare", "subsetter/sampler.py:DatabaseOutput.output_result_set", "subsetter/sampler.py:DatabaseOutput.insert_order", "subsetter/sampler.py:Sampler.sample"]}
{"id": "C92", "title": "Merging with compaction keeps keys small", "statement": "With `merge` and `compact.primary_keys` on (conditions otherwise as in C91), merging works as without compaction: the run succeeds, foreign keys hold after every commit and no row that was there changes. The sampled rows of each merged table get new, consecutive identifiers from `start_key`, moved by one more than the largest key of the table, and every reference to a merged table becomes the new key of the row it referred to. After any sequence of runs the first number past the largest key of a table has grown by exactly the number of rows added plus at most `start_key` for each run, however large the keys of the sources are; with `start_key` 0 a table without gaps keeps having none.", "quantifier": "every pair of databases, their contents, planner configuration, remapping and random choices; every sequence of runs or of calls of `subset`, from any sources", "why_tests_cant": "the README gives compaction as the remedy for keys growing with every merge; that the growth is bounded whatever is sampled and however often, and that renumbering and moving compose without breaking references, is a claim about all databases and all sequences of runs", "anchors": ["subsetter/sampler.py:DatabaseOutput.prepare", "subsetter/sampler.py:DatabaseOutput.output_result_set", "subsetter/sampler.py:Sampler._materialize_tables", "README.md:Merging"]}
{"id": "C93", "title": "A database can be built up by merging samples with --create", "statement": "With `--create` and `merge` on, samples can be merged into a database that has any part of the needed tables, also none of them. Each run creates the tables that are missing, keeps those that are there, appends the sampled rows with keys moved past the keys present (so that rows copied into new tables keep their keys), and leaves every row and table that was there as it was; foreign keys of all tables hold after every commit. Any number of such runs with different plans, with or without compaction, can follow each other from an empty database on, and all succeed.", "quantifier": "for all sources with acyclic references between the tables sampled, all destinations whose existing tables are like those of the source, all plans within the given tables and all sequences of runs or calls of `subset --create`", "why_tests_cant": "a test can only create a few tables in a few orders; which foreign keys a new table gets depends on which tables were created by earlier runs, so the number of histories is unbounded", "anchors": ["subsetter/sampler.py:DatabaseOutput.create", "subsetter/sampler.py:DatabaseOutput.prepare", "subsetter/sampler.py:DatabaseOutput.output_result_set", "subsetter/sampler.py:Sampler.sample", "README.md:Merging"]}
{"id": "C94", "title": "Rows that were not sampled do not matter, and sampling a sample again changes nothing", "statement": "If no target is limited by a percentage or an amount, the sample depends on the sampled rows only: from any source that holds the sampled rows, and in the sampled tables no rows the original has not, the same rows are sampled in the same order, and every run with the same plan ends in the same way. In particular a database created by `subset` can be subset again with the same plan and gives the same rows; with an amount this holds as well, up to order and whatever the database draws.", "quantifier": "for all schemas, configurations without random choice (for the last part: without percentages), sources, reduced sources and run configurations", "why_tests_cant": "a test compares a few sources; which rows can be left out depends on the whole reference graph and on every condition, and there are exponentially many reduced sources", "anchors": ["subsetter/planner.py:Planner.plan", "subsetter/planner.py:Planner._plan_table", "subsetter/sampler.py:Sampler.sample", "subsetter/sampler.py:Sampler._materialize_tables"]}
{"id": "C95", "title": "Tables that are neither selected nor needed do not matter", "statement": "Further tables in the source that match no pattern of the selection, and are not needed by a selected table, change neither the plan nor anything a run does, even if they refer to selected tables. Further tables in the destination that are not destinations of planned tables and do not refer to such a table, directly or not, change nothing either: the same states are committed, the same rows written, the same tables created or the same error raised, and their own rows stay as they were at any time.", "quantifier": "for all schemas, further tables, configurations, plans, contents and executions", "why_tests_cant": "a test has a fixed schema; which tables are related depends on patterns, remapping and chains of foreign keys in arbitrary schemas, and a table can matter through truncation, offsets or the insert order only", "anchors": ["subsetter/metadata.py:DatabaseMetadata.from_engine", "subsetter/planner.py:Planner.plan", "subsetter/sampler.py:DatabaseOutput.__init__", "subsetter/sampler.py:DatabaseOutput.truncate", "subsetter/sampler.py:Sampler.sample"]}
{"id": "C96", "title": "Directory and database get the same rows", "statement": "If a plan is sampled to a directory and to a database with the same configuration, then every table to which rows are only added (conflict strategy error, or no primary key) gets one row for each line of the table's file, in the same order and with the same values in all columns the table does not generate; with merging the values of each column are moved by one number. If nothing is merged, generated or omitted, what is added is the file. This holds for filters whose values depend on the row only; compaction, multiplication, inferred foreign keys and remapping are allowed. A plan of the planner sampled without transformations succeeds with both outputs and every created table holds exactly the lines of its file.", "quantifier": "for all schemas, source contents, plans, configurations, destinations, earlier contents and executions", "why_tests_cant": "the two outputs are different code (order of tables, index computations for columns, batches and offsets); a test compares them for one configuration", "anchors": ["subsetter/sampler.py:DirectoryOutput.output_result_set", "subsetter/sampler.py:DatabaseOutput.output_result_set", "subsetter/sampler.py:Sampler._copy_results", "subsetter/sampler.py:Sampler.sample"]}
{"id": "C97", "title": "The destination does not influence the rows", "statement": "Two runs that read the same source with the same plan and the same filters, multiplicity, compaction and inference add the same rows, in the same order, to a table to which both only add rows, whatever the destinations are: other names (remapping), other existing tables and contents, created or truncated tables, another kind of database, another buffer size. Values of columns sent to both tables have the same origin and differ only by the numbers by which merging moves them; columns not sent have the table's default. Without merging the added rows are identical if the tables have the same columns, generated columns and defaults.", "quantifier": "for all schemas, source contents, plans, configurations, pairs of destinations and contents, and executions; filters whose values depend on the row only", "why_tests_cant": "a test compares two particular destinations; that nothing of the destination reaches the rows read, their identifiers or their order has to hold for all", "anchors": ["subsetter/sampler.py:DatabaseOutput.output_result_set", "subsetter/sampler.py:DatabaseOutput.prepare", "subsetter/sampler.py:Sampler._copy_results", "subsetter/sampler.py:Sampler.sample"]}
{"id": "C98", "title": "Interrupted runs can be repeated", "statement": "A run with conflict strategy skip or replace that neither truncates nor merges nor creates tables can be stopped after any commit and simply be run again: with the same random choices the second run sends the same rows and leaves exactly the contents an uninterrupted run leaves, and it fails only if the first would have failed. In particular running twice changes nothing. If no filter draws random values or calls a plugin, the result of any run does not depend on random choices at all, so any number of interrupted runs followed by a complete one gives what one run gives. Required: the tables written have primary keys that are written, and on SQLite rows with generated columns are not replaced. A run into a directory can always be repeated: a run without an error leaves the same files whatever the files of the planned tables held, also after runs that failed. With skip, a repeated run goes only through contents an uninterrupted run goes through row by row, so a destination that enforces foreign keys and unique constraints and accepts the one accepts the other.", "quantifier": "for all schemas, source and destination contents, plans, configurations, buffer sizes, commits at which runs stop and numbers of interruptions", "why_tests_cant": "an interruption may happen between any two commits and any number of times; a test can try only a few", "anchors": ["subsetter/sampler.py:DatabaseOutput._flush_buffer", "subsetter/sampler.py:DatabaseOutput.output_result_set", "subsetter/sampler.py:Sampler._copy_results", "subsetter/sampler.py:Sampler.sample", "subsetter/sampler.py:DirectoryOutput.output_result_set"]}
{"id": "C99", "title": "Filters of a table affect no other table", "statement": "Adding, removing or changing the filters of one planned table changes the contents of no other table: if the run succeeds with and without the change, every other table of the destination ends up with the same rows and was sent the same batches, and every other file of a directory has the same lines, even with other random choices. This holds with any conflict strategy, with truncation, merging, table creation, compaction and multipliers. The changed filters may draw random values; filters of the other tables must not, because all filters draw from the same generators. Filters listed for tables that are not planned have no effect at all, nor has the order in which tables are listed.", "quantifier": "for all schemas, source and destination contents, plans, configurations, tables, filters before and after, and states of the random generators", "why_tests_cant": "the claim relates two runs for every combination of configuration, filters and contents; a test compares a few pairs", "anchors": ["subsetter/sampler.py:Sampler._copy_results", "subsetter/sampler.py:DatabaseOutput.output_result_set", "subsetter/sampler.py:DirectoryOutput.output_result_set", "subsetter/filters.py:FilterViewChain.construct_filter"]}
{"id": "C100", "title": "Conflict strategies matter only if there are conflicts", "statement": "A run that succeeds with conflict strategy error does exactly the same with skip and with replace: the same contents after every commit, the same batches sent, no error. This holds also if tables have unique constraints beside the primary key, with truncation, merging and table creation. Exceptions: on SQLite replace fails on tables with generated columns even without conflicts, and databases other than MySQL, PostgreSQL and SQLite accept only error.", "quantifier": "for all schemas, source and destination contents, plans, configurations, buffer sizes, random choices and strategies", "why_tests_cant": "the three strategies build different statements for each database; that they agree has to hold for all contents without conflicts", "anchors": ["subsetter/sampler.py:ConflictInsert", "subsetter/sampler.py:DatabaseOutput.output_result_set", "subsetter/sampler.py:Sampler.sample"]}
{"id": "C101", "title": "Filters on different columns can be reordered", "statement": "The order of two neighbouring filters of a table that work on different columns and keep all columns does not matter: if a run succeeds, it succeeds with the filters exchanged and leaves exactly the same - schema, contents after every commit, batches, files. Exchanges can be repeated and made for several tables. This is false if both filters draw random values (or call plugins), as the first gets the first value.", "quantifier": "for all schemas, source and destination contents, plans, configurations, multipliers, random choices and any number of exchanges", "why_tests_cant": "the order of filters is one of a configuration's endless variations; tests only see a few chains", "anchors": ["subsetter/filters.py:FilterColumns", "subsetter/filters.py:FilterViewChain", "subsetter/sampler.py:Sampler.sample"]}
