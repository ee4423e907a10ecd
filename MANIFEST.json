{
 "claims": [
  {
   "property": "C01",
   "status": "proved",
   "theorems": [
    "Butane.Props.diff_reaches_target",
    "Butane.Props.diff_reaches_target_from_same",
    "Butane.Props.diff_keeps_valid"
   ],
   "note": "Schemas are maps with distinct column names per table, which the API maintains."
  },
  {
   "property": "C02",
   "status": "partial",
   "theorems": [
    "Butane.Props.diff_nil_iff_partial",
    "Butane.Props.same_of_diff_nil",
    "Butane.Props.diff_self_partial",
    "Butane.Props.diff_self_violated"
   ],
   "note": "Full property is false of the code: a NaN default makes a schema differ from itself (diff_self_violated). Proved for all schemas without NaN defaults in old."
  },
  {
   "property": "C03",
   "status": "proved",
   "theorems": [
    "Butane.Props.diff_down_undoes_up"
   ],
   "note": ""
  },
  {
   "property": "C04",
   "status": "proved",
   "theorems": [
    "Butane.Props.diff_op_applicable",
    "Butane.Props.diff_constraints_last",
    "Butane.Props.diff_changes_are_real_partial",
    "Butane.Props.diff_tables_complete"
   ],
   "note": "Applicability and constraint ordering proved for all schemas; that a column change is a real change needs no NaN defaults."
  },
  {
   "property": "C05",
   "status": "partial",
   "theorems": [
    "Butane.Props.drop_unreferenced_partial",
    "Butane.Props.drop_referenced_violated",
    "Butane.Props.sqlite_drop_referenced_violated"
   ],
   "note": "PostgreSQL: true unless a table that stays referred to one that goes, in which case it is false: the table is dropped before the column. On SQLite it is false also when both tables go."
  },
  {
   "property": "C06",
   "status": "proved",
   "theorems": [
    "Butane.Props.resolve_terminates",
    "Butane.Props.resolve_ok",
    "Butane.Props.resolve_err",
    "Butane.Props.resolve_no_panic",
    "Butane.Props.resolve_ok_iff"
   ],
   "note": "Panic freedom (and hence Ok iff derivable) is for schemas of the shape the code generator produces (Generated); termination and the Ok/Err clauses hold for all schemas."
  },
  {
   "property": "C07",
   "status": "proved",
   "theorems": [
    "Butane.Props.resolve_sound",
    "Butane.Props.resolve_idempotent",
    "Butane.Props.resolve_idempotent_alias_needed"
   ],
   "note": "Idempotence assumes aliases name tables (all the generator emits); without it resolving again can panic (resolve_idempotent_alias_needed)."
  },
  {
   "property": "C08",
   "status": "partial",
   "theorems": [
    "Butane.Props.typekey_roundtrip",
    "Butane.Props.typekey_text_injective",
    "Butane.Props.typekey_accepts_only_keys",
    "Butane.Props.typekey_order",
    "Butane.Props.typekey_rejects_others_partial",
    "Butane.Props.typekey_rejects_others_violated"
   ],
   "note": "Round trip, injectivity and order proved in full. Rejection of non-keys is false of the code: texts shorter than three bytes panic."
  },
  {
   "property": "C09",
   "status": "partial",
   "theorems": [
    "Butane.Props.many_tables_distinct_partial",
    "Butane.Props.many_tables_distinct_same_model",
    "Butane.Props.many_table_not_model_partial",
    "Butane.Props.many_tables_distinct_violated"
   ],
   "note": "False in full: names with underscores collide (many_tables_distinct_violated)."
  },
  {
   "property": "C10",
   "status": "partial",
   "theorems": [
    "Butane.Props.filter_selects_sqlite_partial",
    "Butane.Props.filter_selects_pg_partial",
    "Butane.Props.filter_reserved_field_violated",
    "Butane.Props.filter_owner_field_violated"
   ],
   "note": "False in full: fields named like keywords, fields called owner/has behind contains, empty is_in and more than 126 values on PostgreSQL. Proved for every other filter of any nesting, through tokenizing, parsing and evaluating the generated text."
  },
  {
   "property": "C100",
   "status": "partial",
   "theorems": [
    "Butane.Props.macro_objects_partial",
    "Butane.Props.macro_load_partial",
    "Butane.Props.macro_load_returns_partial",
    "Butane.Props.macro_first_partial",
    "Butane.Props.macro_delete_partial",
    "Butane.Props.macro_delete_then_load_partial",
    "Butane.Props.macro_history_partial",
    "Butane.Props.project_macro_partial",
    "Butane.Props.project_macro_delete_partial",
    "Butane.Props.crate_filter_world",
    "Butane.Props.crate_filter_partial",
    "Butane.Props.project_has_crate"
   ],
   "note": "Partial because conditions spliced in lose their grouping (macro_group_violated of C99), with the restrictions of C83 on names, `like` on reals, negative limits and offsets (WorldFor, LikesOk, NonNeg). WorldFor is derived for every crate (crate_filter_world) from what its structs declare, column names that need no quotes and what the type checker lets through."
  },
  {
   "property": "C101",
   "status": "partial",
   "theorems": [
    "Butane.Props.pg_macro_objects_partial",
    "Butane.Props.pg_macro_load_partial",
    "Butane.Props.pg_macro_load_returns_partial",
    "Butane.Props.pg_macro_first_partial",
    "Butane.Props.pg_macro_delete_partial",
    "Butane.Props.pg_macro_delete_succeeds_partial",
    "Butane.Props.pg_macro_delete_then_load_partial",
    "Butane.Props.pg_program_partial",
    "Butane.Props.pg_macro_history_partial"
   ],
   "note": "Partial: texts with `matches` and `contains` are covered for rows only (macro_selects_pg_partial of C99), conditions spliced in lose their grouping (macro_group_violated of C99), and the restrictions of C96 on names, values, empty lists, `like` and limits apply (PgEnvFor, PgCallsOk, PgAsks)."
  },
  {
   "property": "C11",
   "status": "partial",
   "theorems": [
    "Butane.Props.condition_means_sqlite_partial",
    "Butane.Props.condition_means_pg_partial",
    "Butane.Props.condition_or_under_and_violated",
    "Butane.Props.condition_not_and_violated",
    "Butane.Props.condition_allOf_empty_violated",
    "Butane.Props.condition_two_joins_violated"
   ],
   "note": "False in full: no parentheses are written, AllOf([]) is empty text, two joins run together. Proved for expressions that need no parentheses."
  },
  {
   "property": "C12",
   "status": "partial",
   "theorems": [
    "Butane.Props.text_independent_of_values",
    "Butane.Props.values_in_reading_order",
    "Butane.Props.placeholders_aligned_sqlite_partial",
    "Butane.Props.placeholders_aligned_pg_partial",
    "Butane.Props.placeholder_operand_violated"
   ],
   "note": "Injection freedom and the order of bound values hold for all expressions. Alignment is false with Expr::Placeholder; proved without it."
  },
  {
   "property": "C13",
   "status": "partial",
   "theorems": [
    "Butane.Props.pg_placeholder_numbering_partial",
    "Butane.Props.pg_placeholder_checked_partial",
    "Butane.Props.placeholders_aligned_pg_partial",
    "Butane.Props.pg_placeholder_overflow_violated"
   ],
   "note": "False in full: the counter is an i8."
  },
  {
   "property": "C14",
   "status": "partial",
   "theorems": [
    "Butane.Props.null_tests",
    "Butane.Props.is_in_sqlite",
    "Butane.Props.is_in_pg_partial",
    "Butane.Props.is_in_empty_pg_violated"
   ],
   "note": "Null tests in full on both backends, is_in in full on SQLite; an empty is_in is an error on PostgreSQL."
  },
  {
   "property": "C15",
   "status": "partial",
   "theorems": [
    "Butane.Props.insert_stores_partial",
    "Butane.Props.insert_default_stores",
    "Butane.Props.pg_insert_returning_partial",
    "Butane.Props.pg_returning_reserved_violated",
    "Butane.Props.update_stores_partial",
    "Butane.Props.upsert_stores",
    "Butane.Props.upsert_single_stores"
   ],
   "note": "Proved by tokenizing, parsing and executing the generated statements on arbitrary tables. Partial on PostgreSQL: at most 126 columns for INSERT/UPDATE (i8 placeholder counter), and an automatic key must not be called like a keyword (pg_returning_reserved_violated). Upsert is without limit."
  },
  {
   "property": "C16",
   "status": "partial",
   "theorems": [
    "Butane.Props.load_result_partial",
    "Butane.Props.load_negative_limit",
    "Butane.Props.load_offset_only_violated"
   ],
   "note": "False in full: on SQLite an offset without limit returns at most 2147483647 rows. Otherwise exact characterisation of the possible results of load, for queries that need no parentheses."
  },
  {
   "property": "C17",
   "status": "partial",
   "theorems": [
    "Butane.Props.load_first_partial",
    "Butane.Props.load_first_limit_zero_violated"
   ],
   "note": "False in full: load_first ignores a limit of 0."
  },
  {
   "property": "C18",
   "status": "partial",
   "theorems": [
    "Butane.Props.query_delete_partial",
    "Butane.Props.query_delete_limit_violated"
   ],
   "note": "False in full: delete ignores limit and offset."
  },
  {
   "property": "C19",
   "status": "partial",
   "theorems": [
    "Butane.Props.objects_are_map_partial",
    "Butane.Props.objects_progress_partial"
   ],
   "note": "Every history on every model without automatic key refines a map, for all keys the database compares exactly and objects whose values read back. Partial only in that the key field must not be called like a SQL keyword (see C10)."
  },
  {
   "property": "C20",
   "status": "partial",
   "theorems": [
    "Butane.Props.auto_objects_are_map_partial",
    "Butane.Props.auto_objects_progress_partial",
    "Butane.Props.auto_insert_partial",
    "Butane.Props.auto_update_partial",
    "Butane.Props.delete_unsaved",
    "Butane.Props.auto_key_reuse_violated"
   ],
   "note": "Every history refines a map that hands out fresh keys. False in full on SQLite: keys of deleted rows are handed out again, so saving a stale object overwrites another object (auto_key_reuse_violated)."
  },
  {
   "property": "C21",
   "status": "partial",
   "theorems": [
    "Butane.Props.save_with_key_partial",
    "Butane.Props.save_missing_row_violated"
   ],
   "note": "False in full: saving an object with an initialised automatic key whose row is missing stores nothing, proved for every such object. With an existing row get returns the saved object."
  },
  {
   "property": "C22",
   "status": "partial",
   "theorems": [
    "Butane.Props.many_save_exact",
    "Butane.Props.many_save_partial",
    "Butane.Props.many_history_partial",
    "Butane.Props.many_save_other_owner_violated"
   ],
   "note": "False in full: saving a removal deletes the links of every owner to that item. The exact effect is proved for every link table; every history refines the specification as long as no other owner is linked to an item the history removes (and at most 126 pending removals on PostgreSQL)."
  },
  {
   "property": "C23",
   "status": "proved",
   "theorems": [
    "Butane.Props.many_set",
    "Butane.Props.many_delete"
   ],
   "note": "For all link tables, owners, values and pending changes, when no statement fails."
  },
  {
   "property": "C24",
   "status": "partial",
   "theorems": [
    "Butane.Props.many_load_exact",
    "Butane.Props.many_load_partial",
    "Butane.Props.many_load_twice_violated",
    "Butane.Props.many_load_removed_violated"
   ],
   "note": "False in full: an addition of something already linked is shown twice and pending removals are still shown. Exact characterisation of what is shown is proved for all link tables and pending changes."
  },
  {
   "property": "C25",
   "status": "partial",
   "theorems": [
    "Butane.Props.many_failed_save_partial",
    "Butane.Props.many_retry_partial",
    "Butane.Props.many_failed_save_violated"
   ],
   "note": "False in full: the addition whose insert fails is lost. All other additions are written or still pending, for every failure point."
  },
  {
   "property": "C26",
   "status": "proved",
   "theorems": [
    "Butane.Props.many_get_fresh",
    "Butane.Props.many_call_cache",
    "Butane.Props.many_uninit",
    "Butane.Props.many_init",
    "Butane.Props.many_add_invalid"
   ],
   "note": "All histories with failures anywhere."
  },
  {
   "property": "C27",
   "status": "partial",
   "theorems": [
    "Butane.Props.fkey_made",
    "Butane.Props.fkey_history",
    "Butane.Props.fkey_loaded_once",
    "Butane.Props.fkey_stored_once",
    "Butane.Props.fkey_failed_load",
    "Butane.Props.fkey_unsaved_violated",
    "Butane.Props.fkey_bad_column_violated"
   ],
   "note": "All histories, for keys that can be stored. False of keys of unsaved objects (to_sql panics) and of columns with a value of another type (pk panics)."
  },
  {
   "property": "C28",
   "status": "proved",
   "theorems": [
    "Butane.Props.init_agree",
    "Butane.Props.init_stable",
    "Butane.Props.init_progress",
    "Butane.Props.fkey_concurrent"
   ],
   "note": "All interleavings of any number of threads, for the generic lazy cell and for load, pk and to_sql on one foreign key."
  },
  {
   "property": "C29",
   "status": "partial",
   "theorems": [
    "Butane.Props.fkey_concurrent_to_sql_partial",
    "Butane.Props.fkey_concurrent",
    "Butane.Props.fkey_concurrent_to_sql_violated"
   ],
   "note": "False in full: two threads converting a foreign key made from an object can panic. Proved when the key value is present at the start; threads that do not panic always get the right key."
  },
  {
   "property": "C30",
   "status": "partial",
   "theorems": [
    "Butane.Props.all_migrations_exact",
    "Butane.Props.chain_distinct",
    "Butane.Props.migrations_since_exact",
    "Butane.Props.all_migrations_returns_partial",
    "Butane.Props.all_migrations_cycle_violated"
   ],
   "note": "False in full: with a cycle of predecessors the call never returns. Otherwise the exact chain, for every collection."
  },
  {
   "property": "C31",
   "status": "proved",
   "theorems": [
    "Butane.Props.migrate_applies",
    "Butane.Props.migrate_any_failure",
    "Butane.Props.migrate_twice",
    "Butane.Props.migrate_succeeds",
    "Butane.Props.migrate_gap_violated"
   ],
   "note": "All collections whose links form a chain, all applied prefixes. Beyond prefixes it fails: an older migration that is not recorded is skipped if a newer one is (migrate_gap_violated)."
  },
  {
   "property": "C32",
   "status": "proved",
   "theorems": [
    "Butane.Props.migrate_any_failure",
    "Butane.Props.migrate_resume"
   ],
   "note": "Every failure point, including commits whose answer is lost."
  },
  {
   "property": "C33",
   "status": "partial",
   "theorems": [
    "Butane.Props.unmigrate_any_failure",
    "Butane.Props.migrate_unmigrate_migrate",
    "Butane.Props.unmigrate_missing",
    "Butane.Props.unmigrate_unreadable_violated"
   ],
   "note": "False in full: when the predecessor cannot be read unmigrate reports success with migrations still applied. Every failure point otherwise."
  },
  {
   "property": "C34",
   "status": "partial",
   "theorems": [
    "Butane.Props.mem_history",
    "Butane.Props.fs_history",
    "Butane.Props.mem_create",
    "Butane.Props.fs_create",
    "Butane.Props.mem_create_nothing_partial",
    "Butane.Props.fs_create_nothing_partial",
    "Butane.Props.mem_create_succeeds",
    "Butane.Props.fs_create_succeeds",
    "Butane.Props.mem_reused_name_violated"
   ],
   "note": "All histories of creations, failed ones included, with new names. False for a name that is in the chain already: the links become a circle. Not-a-number defaults aside."
  },
  {
   "property": "C35",
   "status": "partial",
   "theorems": [
    "Butane.Props.fs_history",
    "Butane.Props.fs_create",
    "Butane.Props.fs_missing_table",
    "Butane.Props.fs_detached_name_violated",
    "Butane.Props.fs_failed_name_violated"
   ],
   "note": "All histories with new names. False when the directory of a detached or failed migration is used again."
  },
  {
   "property": "C36",
   "status": "partial",
   "theorems": [
    "Butane.Props.copy_migration_partial",
    "Butane.Props.embed_preserves",
    "Butane.Props.copy_one_direction_violated"
   ],
   "note": "Embedding preserves every history of creations. A copy drops SQL that exists in one direction only."
  },
  {
   "property": "C37",
   "status": "partial",
   "theorems": [
    "Butane.Props.sqlite_migration_partial",
    "Butane.Props.sqlite_migration_runs_partial",
    "Butane.Props.sqlite_add_unique_violated",
    "Butane.Props.sqlite_remove_unique_violated",
    "Butane.Props.sqlite_add_date_violated",
    "Butane.Props.sqlite_add_json_violated",
    "Butane.Props.sqlite_add_quote_violated",
    "Butane.Props.sqlite_move_key_violated",
    "Butane.Props.sqlite_change_referenced_violated",
    "Butane.Props.sqlite_add_reference_violated",
    "Butane.Props.sqlite_auto_violated"
   ],
   "note": "For every pair of plain schemas: the text is parsed and executed by a model of SQLite; if it runs, the result has the new schema, keeps the rows and has none in new tables, and it runs for every feasible change. False for new or removed unique columns, new references, new required dates and JSON, defaults with quotes, moved keys, changed columns of referenced tables and automatic columns that are not the key."
  },
  {
   "property": "C38",
   "status": "partial",
   "theorems": [
    "Butane.Props.pg_migration_partial",
    "Butane.Props.pg_migration_runs_partial",
    "Butane.Props.pg_add_auto_violated",
    "Butane.Props.pg_serial_type_violated",
    "Butane.Props.pg_auto_violated",
    "Butane.Props.pg_drop_key_violated",
    "Butane.Props.pg_replace_key_violated",
    "Butane.Props.pg_add_bytes_violated",
    "Butane.Props.pg_add_date_violated",
    "Butane.Props.pg_json_default_violated",
    "Butane.Props.pg_add_quote_violated",
    "Butane.Props.pg_type_violated",
    "Butane.Props.pg_reserved_violated",
    "Butane.Props.pg_capitals_violated",
    "Butane.Props.pg_constraint_name_violated",
    "Butane.Props.pg_reference_moved_violated",
    "Butane.Props.pg_remove_referenced_violated"
   ],
   "note": "For every pair of schemas whose names do not collide: the SQL is generated, is parsed and executed by a model of the catalog of PostgreSQL, and if no statement fails the result has the new schema (columns, types, nullability, numbering, primary, unique and foreign keys); and no statement fails if the rows allow it and the change is one PostgreSQL can make with these statements (keys stay, references are to keys that stay, new columns are plain and have a default of their type, types can be cast). Rows are not modelled. False for automatic columns that are added or changed, dropped and replaced keys, defaults that are bytes, dates, JSON or have quotes, types without an automatic cast, reserved or colliding names, and references that move while their target is removed."
  },
  {
   "property": "C39",
   "status": "partial",
   "theorems": [
    "Butane.Props.sqlite_literal_partial",
    "Butane.Props.text_literal_violated",
    "Butane.Props.date_literal_violated",
    "Butane.Props.json_literal_violated",
    "Butane.Props.timestamp_literal_violated"
   ],
   "note": "SQLite, for nulls, truth values, integers, blobs, texts without quotes and reals whose numeral is read back. False for every text with a quote, every date, JSON objects and arrays, and timestamps."
  },
  {
   "property": "C40",
   "status": "partial",
   "theorems": [
    "Butane.Props.field_round_trip_partial",
    "Butane.Props.f32_nan_round_trip",
    "Butane.Props.nested_option_violated",
    "Butane.Props.read_needs_type"
   ],
   "note": "All field types, nested to any depth. False for an option of an option: Some(None) is read back as None. Which NaN a 32-bit NaN becomes is not fixed by Rust; it stays a NaN."
  },
  {
   "property": "C41",
   "status": "partial",
   "theorems": [
    "Butane.Props.int_range",
    "Butane.Props.int_in_range_partial",
    "Butane.Props.int_out_of_range_violated",
    "Butane.Props.int_wrong_kind",
    "Butane.Props.sqlite_int_violated"
   ],
   "note": "False: an integer out of range is wrapped silently for every narrow field type, and when SQLite reads an INTEGER column as Int. In range it is exact."
  },
  {
   "property": "C42",
   "status": "partial",
   "theorems": [
    "Butane.Props.sqlite_round_trip_partial",
    "Butane.Props.sqlite_nan_violated",
    "Butane.Props.sqlite_custom_rejected",
    "Butane.Props.sqlite_wrong_class",
    "Butane.Props.sqlite_bool_nonzero"
   ],
   "note": "Assumes that the JSON and date libraries read back what they print. False for NaN, which SQLite stores as NULL."
  },
  {
   "property": "C43",
   "status": "partial",
   "theorems": [
    "Butane.Props.columns_values_line_up",
    "Butane.Props.wrong_number_of_columns",
    "Butane.Props.object_row_sqlite_partial",
    "Butane.Props.object_row_pg_partial"
   ],
   "note": "All structs and objects, on both backends. Not for NaN on SQLite and fractions of a microsecond on PostgreSQL, where it is false."
  },
  {
   "property": "C44",
   "status": "proved",
   "theorems": [
    "Butane.Props.enum_fields",
    "Butane.Props.enum_with_data",
    "Butane.Props.newtype_fields"
   ],
   "note": "All enums without data."
  },
  {
   "property": "C45",
   "status": "partial",
   "theorems": [
    "Butane.Props.sqlite_transaction_partial",
    "Butane.Props.sqlite_transactions_partial",
    "Butane.Props.sqlite_consumed",
    "Butane.Props.sqlite_auto_rollback_violated",
    "Butane.Props.pg_transaction_partial",
    "Butane.Props.pg_all_or_nothing",
    "Butane.Props.pg_consumed",
    "Butane.Props.pg_commit_after_error_violated"
   ],
   "note": "All histories on both backends. False on SQLite after it has rolled back by itself (later statements are committed although the transaction is rolled back), and on PostgreSQL after a failed statement (commit reports success and nothing is visible)."
  },
  {
   "property": "C46",
   "status": "partial",
   "theorems": [
    "Butane.Props.adapter_serial_partial",
    "Butane.Props.adapter_dead_partial",
    "Butane.Props.adapter_progress_partial",
    "Butane.Props.adapter_give_up_violated",
    "Butane.Props.adapter_lost_transaction_violated"
   ],
   "note": "All schedules in which nobody gives up before the call is executed, panics included. False otherwise: the worker uses arguments that are gone. A transaction whose start is abandoned stays open for ever."
  },
  {
   "property": "C47",
   "status": "partial",
   "theorems": [
    "Butane.Props.with_sync_partial",
    "Butane.Props.poisoned_forever",
    "Butane.Props.usable_while_callbacks_return",
    "Butane.Props.with_sync_dropped_violated"
   ],
   "note": "All callbacks, failure points and histories. False only when the caller drops the future while the callback runs."
  },
  {
   "property": "C48",
   "status": "partial",
   "theorems": [
    "Butane.Props.next_each_once",
    "Butane.Props.current_is_next",
    "Butane.Props.current_violated"
   ],
   "note": "All histories of calls. False for current: it returns the row that next will return, not the last one returned."
  },
  {
   "property": "C49",
   "status": "partial",
   "theorems": [
    "Butane.Props.add_parameters_uri_partial",
    "Butane.Props.add_parameters_uri_succeeds",
    "Butane.Props.add_parameters_kv_partial",
    "Butane.Props.add_parameter_error",
    "Butane.Props.add_parameter_fragment_violated",
    "Butane.Props.add_parameter_ampersand_violated",
    "Butane.Props.add_parameter_space_violated"
   ],
   "note": "All lists of parameters without special characters. False for every URI with a fragment, every value with an ampersand and values with spaces: nothing is escaped."
  },
  {
   "property": "C50",
   "status": "partial",
   "theorems": [
    "Butane.Props.cli_migrate_partial",
    "Butane.Props.cli_migrate_all",
    "Butane.Props.cli_migrate_succeeds",
    "Butane.Props.cli_migrate_target_violated",
    "Butane.Props.cli_unmigrate_to",
    "Butane.Props.cli_unmigrate_to_succeeds",
    "Butane.Props.cli_unmigrate_impossible_partial",
    "Butane.Props.cli_unmigrate_later_violated",
    "Butane.Props.cli_unmigrate_latest",
    "Butane.Props.cli_list"
   ],
   "note": "All chains of migrations, databases and failures. False when the target of migrate is already applied or unknown (everything is applied), and when the target of unmigrate lies after the last applied migration (the tool panics). The library functions are those of Model/Migrations.lean."
  },
  {
   "property": "C51",
   "status": "proved",
   "theorems": [
    "Butane.Props.cli_detach",
    "Butane.Props.cli_detach_only",
    "Butane.Props.cli_detach_applied",
    "Butane.Props.cli_detach_succeeds"
   ],
   "note": "All directories reachable by the commands, all databases and failures. The database is the one of the connection file; without such a file the tool does not check."
  },
  {
   "property": "C52",
   "status": "partial",
   "theorems": [
    "Butane.Props.cli_collapse_partial",
    "Butane.Props.cli_collapse_refused",
    "Butane.Props.cli_collapse_succeeds",
    "Butane.Props.cli_collapse_unapplied_violated",
    "Butane.Props.cli_collapse_failure_violated"
   ],
   "note": "False when migrations are not applied yet: their changes are lost. If the database fails while the records are deleted, all migrations are gone although recorded as applied."
  },
  {
   "property": "C53",
   "status": "partial",
   "theorems": [
    "Butane.Props.builder_calls_partial",
    "Butane.Props.filter_twice_violated"
   ],
   "note": "False in full: a second filter replaces the first."
  },
  {
   "property": "C54",
   "status": "partial",
   "theorems": [
    "Butane.Props.many_load_ordered_exact",
    "Butane.Props.many_load_ordered_partial",
    "Butane.Props.many_load_ordered_pending_violated",
    "Butane.Props.many_load_ordered_cached_violated"
   ],
   "note": "False in full: pending additions come after the ordered part, and values that are already there are returned unordered."
  },
  {
   "property": "C55",
   "status": "partial",
   "theorems": [
    "Butane.Props.many_get_after_save_partial",
    "Butane.Props.many_get_after_save_violated"
   ],
   "note": "False in full: values loaded while a removal was pending are still returned after it is saved."
  },
  {
   "property": "C56",
   "status": "partial",
   "theorems": [
    "Butane.Props.fkey_eq_partial",
    "Butane.Props.fkey_eq_unsaved_violated"
   ],
   "note": "False when the other key is that of an unsaved object: unloaded panics, loaded is false."
  },
  {
   "property": "C57",
   "status": "partial",
   "theorems": [
    "Butane.Props.embedded_text_partial",
    "Butane.Props.embedded_hash_violated"
   ],
   "note": "Exact condition under which the compiler reads the text back; false for every text with a string that begins with a number sign."
  },
  {
   "property": "C58",
   "status": "partial",
   "theorems": [
    "Butane.Props.pg_round_trip_partial",
    "Butane.Props.pg_timestamp_violated",
    "Butane.Props.pg_wrong_type"
   ],
   "note": "False for time stamps with a fraction of a microsecond."
  },
  {
   "property": "C59",
   "status": "proved",
   "theorems": [
    "Butane.Props.adapter_rows",
    "Butane.Props.adapter_objects",
    "Butane.Props.buffered_row",
    "Butane.Props.fetch_error"
   ],
   "note": "All results of SQLite connections, all readers of the columns of the query."
  },
  {
   "property": "C60",
   "status": "partial",
   "theorems": [
    "Butane.Props.backend_documented_partial",
    "Butane.Props.documented_unique",
    "Butane.Props.backend_password_violated",
    "Butane.Props.backend_scheme_case_violated"
   ],
   "note": "False when a key/value string contains :// (a password, say): it is opened as an SQLite file; and when sqlite: is not in lower case. The url crate is a parameter."
  },
  {
   "property": "C61",
   "status": "proved",
   "theorems": [
    "Butane.Props.cli_history"
   ],
   "note": "All histories of builds and commands (also regenerating), with failures."
  },
  {
   "property": "C62",
   "status": "proved",
   "theorems": [
    "Butane.Props.cli_add_backend",
    "Butane.Props.cli_add_backend_keeps",
    "Butane.Props.cli_add_backend_succeeds"
   ],
   "note": "All reachable directories and backends."
  },
  {
   "property": "C63",
   "status": "proved",
   "theorems": [
    "Butane.Props.cli_remove_backend",
    "Butane.Props.cli_remove_backend_keeps",
    "Butane.Props.cli_remove_last_backend",
    "Butane.Props.cli_remove_backend_succeeds"
   ],
   "note": "All reachable directories and backends."
  },
  {
   "property": "C64",
   "status": "partial",
   "theorems": [
    "Butane.Props.cli_regenerate",
    "Butane.Props.cli_regenerate_keeps",
    "Butane.Props.cli_regenerate_succeeds",
    "Butane.Props.cli_regenerate_crash_violated"
   ],
   "note": "All reachable directories, backends and failures. Violated at crash points: the tables of a migration are deleted before they are written again, and what is left is read as the empty schema. Failures to write files are not modelled."
  },
  {
   "property": "C65",
   "status": "partial",
   "theorems": [
    "Butane.Props.cli_make",
    "Butane.Props.cli_make_not",
    "Butane.Props.cli_make_nothing_partial",
    "Butane.Props.cli_make_taken",
    "Butane.Props.cli_make_succeeds"
   ],
   "note": "\"Exactly if the schema differs\" holds up to not-a-number defaults (C02). If the tool does not know a backend of the latest migration, the new one is made for the backend of the connection only. Names of directories that are not in the chain are not covered (fs_detached_name_violated)."
  },
  {
   "property": "C66",
   "status": "partial",
   "theorems": [
    "Butane.Props.turso_load_partial",
    "Butane.Props.turso_load_first_partial",
    "Butane.Props.turso_filter_partial",
    "Butane.Props.turso_delete_partial",
    "Butane.Props.turso_nested_violated",
    "Butane.Props.turso_snapshot_violated",
    "Butane.Props.turso_delete_violated"
   ],
   "note": "Holds under the conditions of C10/C16/C18 if the database does not change during the call and, without database support for subqueries, no subquery is inside another and deletes have none; each restriction is shown necessary."
  },
  {
   "property": "C67",
   "status": "partial",
   "theorems": [
    "Butane.Props.turso_row_round_trip_partial",
    "Butane.Props.turso_rows",
    "Butane.Props.turso_get_typed",
    "Butane.Props.turso_nan_violated",
    "Butane.Props.turso_int_violated"
   ],
   "note": "False for NaN (read as NULL) and for integers of more than 32 bits in a column declared Int (read as another number). Custom types cannot be stored on Turso."
  },
  {
   "property": "C68",
   "status": "partial",
   "theorems": [
    "Butane.Props.turso_execute_partial",
    "Butane.Props.turso_execute_violated"
   ],
   "note": "False for every script with a semicolon between quotes: it is cut there and fails."
  },
  {
   "property": "C69",
   "status": "partial",
   "theorems": [
    "Butane.Props.turso_migration_partial",
    "Butane.Props.turso_migration_runs_partial",
    "Butane.Props.turso_semicolon_violated",
    "Butane.Props.turso_change_violated"
   ],
   "note": "What a migration that succeeds does, and that feasible changes succeed. False for new columns whose default text has a semicolon, and, if a table cannot be renamed in the transaction that created it (as the code says of Turso), for every changed column; and for the changes that fail on SQLite (C37)."
  },
  {
   "property": "C70",
   "status": "partial",
   "theorems": [
    "Butane.Props.turso_transaction_partial",
    "Butane.Props.turso_connection_partial",
    "Butane.Props.turso_failed_commit_violated",
    "Butane.Props.turso_drop_violated",
    "Butane.Props.turso_drop_panics_violated"
   ],
   "note": "All-or-nothing holds in every history. False: after a commit that fails, or when an unfinished object is dropped outside of a runtime with several threads, the transaction stays open, and everything done with the connection later is lost although it reports success. Cancelled futures are not modelled."
  },
  {
   "property": "C71",
   "status": "partial",
   "theorems": [
    "Butane.Props.turso_insert_key_partial",
    "Butane.Props.turso_returns_last",
    "Butane.Props.turso_insert_key_violated",
    "Butane.Props.turso_insert_two_objects_violated",
    "Butane.Props.turso_insert_key_int_violated"
   ],
   "note": "Holds if no other call inserts on the connection between the two requests of the call; false otherwise, and for keys of more than 32 bits in an i32 key."
  },
  {
   "property": "C72",
   "status": "partial",
   "theorems": [
    "Butane.Props.model_schema_resolves",
    "Butane.Props.model_table_partial",
    "Butane.Props.link_table_partial",
    "Butane.Props.no_other_tables",
    "Butane.Props.model_constants_partial",
    "Butane.Props.cross_name_violated",
    "Butane.Props.same_name_violated",
    "Butane.Props.raw_type_violated",
    "Butane.Props.qualified_type_violated",
    "Butane.Props.builtin_name_violated"
   ],
   "note": "Proved for crates whose names do not collide: structs, tables and declared types have distinct names, no table has the name of another struct, declared types are written without their module, have no raw identifiers if derived, and do not have names of built-in types. The violations show that each of these is needed."
  },
  {
   "property": "C73",
   "status": "partial",
   "theorems": [
    "Butane.Props.compile_order",
    "Butane.Props.recompile_unchanged",
    "Butane.Props.recompile_partial",
    "Butane.Props.removed_model_violated",
    "Butane.Props.removed_table_name_violated"
   ],
   "note": "Order does not matter for crates whose names do not collide; compiling again changes nothing; compiling an edited crate gives what a fresh compilation gives if no recorded table or type name disappears by the edit. What disappears stays recorded."
  },
  {
   "property": "C74",
   "status": "partial",
   "theorems": [
    "Butane.Props.model_frame",
    "Butane.Props.accepted_model",
    "Butane.Props.panicked_model_partial",
    "Butane.Props.rejected_model_violated"
   ],
   "note": "Others are never changed, and accepted models are recorded. A model without a key or with a field whose type is not a path records nothing; one that is rejected because of its AutoPk fields is recorded before it is checked."
  },
  {
   "property": "C75",
   "status": "partial",
   "theorems": [
    "Butane.Props.types_serial_partial",
    "Butane.Props.types_read_partial",
    "Butane.Props.recording_succeeds_partial",
    "Butane.Props.reading_succeeds_partial",
    "Butane.Props.recording_no_deadlock",
    "Butane.Props.tables_agree_partial",
    "Butane.Props.same_source_partial",
    "Butane.Props.types_lost_violated",
    "Butane.Props.torn_table_violated",
    "Butane.Props.killed_violated",
    "Butane.Props.mixed_table_violated"
   ],
   "note": "All processes, programs and schedules. False on a first build whose first item is a type (there is no directory for the lock, and the error is ignored: a type is lost), for reading while a table is written (tables are written without the lock), for compilers that record different tables of the same name at the same time (mixed text), and when a process is killed after it has emptied a file."
  },
  {
   "property": "C76",
   "status": "partial",
   "theorems": [
    "Butane.Props.embedded_current_partial",
    "Butane.Props.embed_command",
    "Butane.Props.embedded_stale_violated"
   ],
   "note": "For all histories in which no command fails; `embed_command`: after any history, also with failures, `embed` itself gives the program the chain and all SQL that can be used. False after a command that fails: a collapse that fails when the database has to forget the migrations has already deleted them on disk, and the program keeps them."
  },
  {
   "property": "C77",
   "status": "partial",
   "theorems": [
    "Butane.Props.sqlite_life_partial",
    "Butane.Props.sqlite_made_partial",
    "Butane.Props.sqlite_migrate_partial",
    "Butane.Props.sqlite_tool_migrate_partial",
    "Butane.Props.sqlite_migrate_succeeds_partial",
    "Butane.Props.sqlite_unmigrate_partial",
    "Butane.Props.sqlite_undo_partial",
    "Butane.Props.sqlite_undo_succeeds_partial",
    "Butane.Props.sqlite_make_migrate_partial",
    "Butane.Props.sqlite_make_succeeds_partial",
    "Butane.Props.sqlite_migrate_stuck_violated"
   ],
   "note": "From an empty directory and an empty database, for schemas and new columns as in C37, with no table called `butane_migrations`. Success is false in general: the tool makes a migration for a new unique column, and then no new database can be migrated (`sqlite_migrate_stuck_violated`); `sqlite_migrate_succeeds_partial` and `sqlite_undo_succeeds_partial` say when it is true. Not in the histories: collapsing, regenerating, and adding or removing the SQLite backend itself."
  },
  {
   "property": "C78",
   "status": "partial",
   "theorems": [
    "Butane.Props.crate_migrated_partial",
    "Butane.Props.crate_first_migration_partial"
   ],
   "note": "For crates as in C72 whose names are ASCII identifiers and whose field types are built in, when nothing is recorded for the crate before it is compiled, and for histories as in C77. That migrating succeeds is proved for the first migration (`crate_first_migration_partial`); for a later one it depends on the rows (C77)."
  },
  {
   "property": "C79",
   "status": "partial",
   "theorems": [
    "Butane.Props.save_shows_partial",
    "Butane.Props.save_then_get_sqlite_partial",
    "Butane.Props.delete_shows",
    "Butane.Props.other_model_shows",
    "Butane.Props.objects_run_partial",
    "Butane.Props.empty_table_shows",
    "Butane.Props.objects_keep_schema",
    "Butane.Props.save_missing_row_sqlite_violated"
   ],
   "note": "The full statement is false: saving an object with an automatic key whose row was deleted succeeds and stores nothing (`save_missing_row_sqlite_violated`, also C21), NaN is stored as NULL (C42), and an automatic key too large for its type is read as another number (C41); the theorems exclude these three. Names are ASCII identifiers and keys are neither real nor optional. Many-to-many fields are in C22 to C26."
  },
  {
   "property": "C80",
   "status": "proved",
   "theorems": [
    "Butane.Props.save_succeeds"
   ],
   "note": "The hypotheses `Ready` are those of C79; foreign keys refer to key columns, as in the tables butane makes (C78)."
  },
  {
   "property": "C81",
   "status": "partial",
   "theorems": [
    "Butane.Props.crate_objects_partial",
    "Butane.Props.crate_objects_ready_partial"
   ],
   "note": "Partial because of the models that are excluded: a crate as in C78; `Option` and `AutoPk` behind an alias (then the column is NOT NULL or not automatic), a field written r#id, a key whose name SQLite reserves, real or optional keys, automatic keys that are not integers, and types with a `FieldType` written by hand; for objects the exceptions of C79. That rows survive later migrations is C77."
  },
  {
   "property": "C82",
   "status": "partial",
   "theorems": [
    "Butane.Props.crate_objects_kept_partial",
    "Butane.Props.crate_objects_new_partial",
    "Butane.Props.crate_objects_kept_violated"
   ],
   "note": "The full property is false: `crate_objects_kept_violated` adds an enum field without a default; make and migrate succeed, but the old object cannot be read any more. The partial theorem asks that every new field has a default that is a value of its type (an enum or Uuid needs a declared one), that kept fields keep their types, and otherwise what C77, C78, C79 and C81 ask. That the migration succeeds is a hypothesis."
  },
  {
   "property": "C83",
   "status": "partial",
   "theorems": [
    "Butane.Props.query_selects_partial",
    "Butane.Props.query_returns_partial",
    "Butane.Props.query_first_partial",
    "Butane.Props.compares_eq",
    "Butane.Props.keeps_start",
    "Butane.Props.world_run_partial",
    "Butane.Props.history_query_partial"
   ],
   "note": "Objects and filters are those of the program: the statement speaks of saved objects and their fields, not of rows (C11, C15-C17 are about rows). Partial because the full property is false of the code: a field named by a keyword (`filter_reserved_field_violated`), a field named owner or has inside contains (`filter_owner_field_violated`), offset without limit (`load_offset_only_violated`), negative limits, and what C79 excludes. `like` on a real is left out. Links of Many fields are given; how they are saved is C18-C20."
  },
  {
   "property": "C84",
   "status": "partial",
   "theorems": [
    "Butane.Props.program_run_partial",
    "Butane.Props.program_query_partial",
    "Butane.Props.many_save_objects",
    "Butane.Props.many_load_objects",
    "Butane.Props.many_load_returns",
    "Butane.Props.many_loaded_objects",
    "Butane.Props.many_set_objects",
    "Butane.Props.save_object_partial",
    "Butane.Props.save_object_failed_partial",
    "Butane.Props.many_save_objects_other_owner_violated"
   ],
   "note": "The general effect of saving a Many field is `many_save_objects`: removed items are removed from every owner, which is a bug (`many_save_objects_other_owner_violated`, cf. C18), so histories are restricted to removed items no other owner has. Otherwise partial for what C79 and C83 exclude. Until they are saved, removed items are still loaded. The link tables are given; that migrations create them is C76-C81."
  },
  {
   "property": "C85",
   "status": "partial",
   "theorems": [
    "Butane.Props.project_run_partial",
    "Butane.Props.project_get_partial",
    "Butane.Props.project_query_partial",
    "Butane.Props.project_makes_partial",
    "Butane.Props.project_catches_up_partial",
    "Butane.Props.project_migrates_partial",
    "Butane.Props.project_undoes_partial"
   ],
   "note": "Puts C81, C82 and C84 together, and is partial for what these exclude: code changes that give a kept field another type or key, a table to a Many field that a model had, or new fields without default; removed items another owner has (a bug of save, see C84). Several migrations can be made before the database catches up, by the program or with the tool, stopping at any of them; the latest can be detached, other backends added and removed. Undoing migrations goes back through the earlier versions of the code, and what the later code had dropped comes back with defaults, not with the old values. Not in the histories: collapse, regenerate, adding the sqlite backend later."
  },
  {
   "property": "C86",
   "status": "partial",
   "theorems": [
    "Butane.Props.clear_data",
    "Butane.Props.clear_data_life",
    "Butane.Props.project_clear",
    "Butane.Props.clear_data_succeeds_partial",
    "Butane.Props.clear_data_stuck_violated",
    "Butane.Props.clear_data_linked_violated"
   ],
   "note": "Proved: what is deleted and what is not, also if it stops anywhere, and that a project goes on without its objects. That it always succeeds is false: tables are emptied in the order of their names, and SQLite refuses to delete a row another row refers to. clear_data_succeeds_partial says exactly when it succeeds; clear_data_stuck_violated that otherwise it fails each time; clear_data_linked_violated is a reachable project where an object with an item in a Many field can never be cleared. PostgreSQL is not included."
  },
  {
   "property": "C87",
   "status": "partial",
   "theorems": [
    "Butane.Props.sqlval_json",
    "Butane.Props.sqltype_json",
    "Butane.Props.field_json_partial",
    "Butane.Props.field_json_violated",
    "Butane.Props.fkey_json_partial",
    "Butane.Props.fkey_json_violated",
    "Butane.Props.many_json_exact",
    "Butane.Props.many_json_partial",
    "Butane.Props.many_json_violated"
   ],
   "note": "False in full: unsaved changes of a Many are lost, reading a foreign key to an unsaved object panics, and Some(None) is read as None. What chrono, uuid and serde_json do with dates, identifiers, fractions and JSON values is a parameter."
  },
  {
   "property": "C88",
   "status": "partial",
   "theorems": [
    "Butane.Props.autopk_eq_laws",
    "Butane.Props.autopk_eq_key",
    "Butane.Props.autopk_order",
    "Butane.Props.fkey_cmp_partial",
    "Butane.Props.fkey_eq_refl_violated",
    "Butane.Props.fkey_eq_unsaved_violated"
   ],
   "note": "False in full: a foreign key that holds an unsaved object does not equal itself, although it implements Eq, and comparing an unloaded one with an unsaved object panics."
  },
  {
   "property": "C89",
   "status": "partial",
   "theorems": [
    "Butane.Props.pgtype_survives_partial",
    "Butane.Props.pgtype_stable",
    "Butane.Props.pgtype_builtin_violated",
    "Butane.Props.pgtype_multirange_violated"
   ],
   "note": "False in full: writing a multirange panics, and a constant of the library is read back as a type that compares different from it."
  },
  {
   "property": "C90",
   "status": "partial",
   "theorems": [
    "Butane.Props.describe_right_partial",
    "Butane.Props.describe_nothing_partial",
    "Butane.Props.describe_current_partial",
    "Butane.Props.describe_current_make",
    "Butane.Props.describe_migration_partial",
    "Butane.Props.describe_unknown",
    "Butane.Props.describe_nan_violated",
    "Butane.Props.describe_hides",
    "Butane.Props.describe_hides_violated"
   ],
   "note": "Fails in full: a default that is not-a-number is described as a change of a schema that did not change (describe_nan_violated; the partial theorems assume no such default), and of new columns only name and type are shown, so that different changes have the same description (describe_hides_violated). The order of the description is not stated. The text of the lines is not modelled, only what they show."
  },
  {
   "property": "C91",
   "status": "partial",
   "theorems": [
    "Butane.Props.pg_save_shows_partial",
    "Butane.Props.save_then_get_pg_partial",
    "Butane.Props.pg_delete_shows",
    "Butane.Props.pg_other_model_shows",
    "Butane.Props.pg_objects_run_partial",
    "Butane.Props.pg_empty_table_shows",
    "Butane.Props.save_missing_row_pg_violated"
   ],
   "note": "The PostgreSQL counterpart of C79. The full statement is false: saving an object with an automatic key whose row was deleted succeeds and stores nothing (`save_missing_row_pg_violated`, also C21), fractions of a microsecond are cut off (C42), and a number of a sequence too large for the type of the key is read as another number (C41); the theorems exclude these three. Names are ASCII identifiers, there are at most 126 columns (C14), and keys are neither real nor JSON nor optional. Many-to-many fields are in C22 to C26."
  },
  {
   "property": "C92",
   "status": "partial",
   "theorems": [
    "Butane.Props.pg_save_succeeds_partial",
    "Butane.Props.pg_delete_succeeds",
    "Butane.Props.pg_save_get_partial"
   ],
   "note": "The counterpart of C91 for success. Partial because tables with columns of no field, fractions of a microsecond and numbers too large for the key type are excluded, and what `PgReady` excludes (C91). Foreign keys must refer to keys, which is what butane creates."
  },
  {
   "property": "C93",
   "status": "partial",
   "theorems": [
    "Butane.Props.pg_crate_first_migration_partial"
   ],
   "note": "The counterpart of C78 for PostgreSQL. Partial: only the first migration, on an empty database; names must be ASCII, must not collide in lower case or with default names of constraints (see C38), types must be built in, and only keys may be AutoPk."
  },
  {
   "property": "C94",
   "status": "partial",
   "theorems": [
    "Butane.Props.pg_crate_objects_partial",
    "Butane.Props.pg_crate_objects_ready",
    "Butane.Props.pg_run_stores"
   ],
   "note": "The counterpart of C81 for PostgreSQL; connects C93 with C91 and C92. Partial for the reasons given there: only the first migration; saving an object with an automatic key whose row is gone is excluded from the histories (C91); keys are neither real nor JSON nor optional; at most 126 columns. Names are compared as the program writes them: the database of objects and the catalog (where names are in lower case) are connected by PgStores."
  },
  {
   "property": "C95",
   "status": "partial",
   "theorems": [
    "Butane.Props.pg_made_partial",
    "Butane.Props.pg_life_partial",
    "Butane.Props.pg_migrate_partial",
    "Butane.Props.pg_tool_migrate_partial",
    "Butane.Props.pg_migrate_succeeds_partial",
    "Butane.Props.pg_unmigrate_partial",
    "Butane.Props.pg_make_succeeds_partial",
    "Butane.Props.pg_make_migrate_partial",
    "Butane.Props.pg_crate_migrated_partial",
    "Butane.Props.pg_undo_stuck_violated"
   ],
   "note": "The counterpart of C77 and C78 for PostgreSQL. Partial: rows are not followed (a step may permit or refuse anything because of them); schemas are restricted as in C38 (no colliding names, no custom types, keys stay); success asks that rows permit all statements. Undoing need not succeed: pg_undo_stuck_violated shows a migration made by the tool that can be applied and that no connection can undo, because the table is dropped before the column that refers to it."
  },
  {
   "property": "C96",
   "status": "partial",
   "theorems": [
    "Butane.Props.pg_query_selects_partial",
    "Butane.Props.pg_query_returns_partial",
    "Butane.Props.pg_query_first_partial",
    "Butane.Props.pg_first_returns_partial",
    "Butane.Props.pg_compares_eq",
    "Butane.Props.pg_stores_empty",
    "Butane.Props.pg_stores_run_partial",
    "Butane.Props.pg_history_query_partial",
    "Butane.Props.pg_json_filter_violated"
   ],
   "note": "The counterpart of C83 for PostgreSQL. Partial: filters on related objects (matches, contains), empty lists, more than 126 values, fields named by keywords, fractions of microseconds and negative limits are left out; histories are those of C91. The property is false for JSON: pg_json_filter_violated shows that a filter that compares a JSON field with a JSON value always fails, because the parameter is declared as json and the column is jsonb."
  },
  {
   "property": "C97",
   "status": "partial",
   "theorems": [
    "Butane.Props.pg_query_delete_partial",
    "Butane.Props.pg_query_delete_succeeds_partial",
    "Butane.Props.pg_delete_then_load_partial"
   ],
   "note": "The counterpart of C18 for objects in a PostgreSQL database. Partial: the filters are those of C96 (no related objects, no empty lists, at most 126 values, no keywords as names, no JSON). Limit and offset of the query are ignored (query_delete_limit_violated, C18). When rows of other tables refer to the table, deleting may fail; then nothing changes."
  },
  {
   "property": "C98",
   "status": "partial",
   "theorems": [
    "Butane.Props.compile_completes_partial",
    "Butane.Props.compile_succeeds",
    "Butane.Props.clean_compile",
    "Butane.Props.clean_only_current",
    "Butane.Props.only_current_migrations",
    "Butane.Props.clean_then_make",
    "Butane.Props.clean_compile_make",
    "Butane.Props.delete_table",
    "Butane.Props.compile_after_delete_partial",
    "Butane.Props.stale_table_violated"
   ],
   "note": "Partial because without clean the property is false of the code: a model removed from the source stays recorded (stale_table_violated). clean_then_make states a hazard: a migration made after clean and before compiling has no tables. Removing the directory is one step; files that are cut off in the middle are not modelled. compile_completes_partial and compile_after_delete_partial state when clean is not needed."
  },
  {
   "property": "C99",
   "status": "partial",
   "theorems": [
    "Butane.Props.macro_means_partial",
    "Butane.Props.macro_selects_sqlite_partial",
    "Butane.Props.macro_selects_pg_partial",
    "Butane.Props.macro_selects_turso_partial",
    "Butane.Props.macro_condition",
    "Butane.Props.macro_splice_sqlite_partial",
    "Butane.Props.macro_splice_pg_partial",
    "Butane.Props.macro_complete",
    "Butane.Props.macro_rejects",
    "Butane.Props.macro_group_violated",
    "Butane.Props.macro_block_violated"
   ],
   "note": "Partial because a condition spliced in, by braces or through a macro_rules! macro, loses its grouping in the SQL text (macro_group_violated, macro_block_violated; the cause is condition_or_under_and_violated of C11). The SQL theorems carry the restrictions of C10 on names, and on PostgreSQL on the number of bound values and empty is_in lists. Rust's parser is a predicate on trees (Parsed); which comparisons type check is a parameter."
  }
 ]
}