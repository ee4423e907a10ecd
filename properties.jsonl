{"id": "C01", "title": "Generated operations reach the target schema", "statement": "For any two schemas, applying the operations returned by diff(old, new) to old, one after another, gives a schema with exactly the tables of new, each with exactly the columns of new (column order aside), every column equal to the one in new.", "quantifier": "all pairs of schemas (any number of tables, columns, names, types, defaults, references)", "why_tests_cant": "Tests compare a handful of schema pairs; the claim is about every pair.", "anchors": ["butane_core/src/migrations/adb.rs::diff", "butane_core/src/migrations/adb.rs::diff_table", "butane_core/src/migrations/adb.rs::ADB::transform_with"]}
{"id": "C02", "title": "A migration is generated exactly when the schema changed", "statement": "diff(old, new) is empty if and only if old and new have the same tables with the same columns up to column order; in particular diffing a schema with itself yields nothing.", "quantifier": "all pairs of schemas", "why_tests_cant": "An emptiness claim over an infinite space of pairs; a test only shows it for the pairs chosen.", "anchors": ["butane_core/src/migrations/adb.rs::diff", "butane_core/src/migrations/mod.rs::create_migration_to"]}
{"id": "C03", "title": "Down operations undo up operations", "statement": "Applying diff(old, new) and then diff(new, old) to old gives back old, up to column order, whatever the two schemas are.", "quantifier": "all pairs of schemas", "why_tests_cant": "Every pair of schemas has its own down script.", "anchors": ["butane_core/src/migrations/adb.rs::diff", "butane_core/src/migrations/mod.rs::create_migration_to"]}
{"id": "C04", "title": "No generated operation is a silent no-op", "statement": "When the operations of diff(old, new) are executed in order on old, each one finds what it needs: a table or column that is added is absent, one that is removed or changed is present (and is the recorded old definition), constraints are added only to tables that already have their final columns, after all tables have been created and dropped.", "quantifier": "all pairs of schemas and every position in the operation list", "why_tests_cant": "The order of operations matters at every prefix; tests look at the end result only.", "anchors": ["butane_core/src/migrations/adb.rs::diff", "butane_core/src/migrations/adb.rs::diff_table", "butane_core/src/migrations/adb.rs::Operation"]}
{"id": "C05", "title": "A table is never dropped while a foreign key still points at it", "statement": "While the operations of diff(old, new) run on a database that enforces foreign keys, no table is dropped while a live foreign key constraint of another table references it, provided new itself contains no dangling reference.", "quantifier": "all pairs of schemas with foreign keys, every intermediate state", "why_tests_cant": "Depends on table names (operations are ordered by name) and on which tables and columns vanish together.", "anchors": ["butane_core/src/migrations/adb.rs::diff", "butane_core/src/db/pg.rs::drop_table", "butane_core/src/db/pg.rs::remove_table_fkey_constraints"]}
{"id": "C06", "title": "Type resolution terminates and leaves nothing unresolved on success", "statement": "resolve_types always terminates; when it returns Ok every column of every table has a concrete type and nothing except unresolved types and references has changed; when it returns an error some column has a type that cannot be derived from the schema.", "quantifier": "all schemas, including cyclic and dangling type references", "why_tests_cant": "Termination and completeness of a fixpoint loop cannot be established by running it on samples.", "anchors": ["butane_core/src/migrations/adb.rs::ADB::resolve_types", "butane_core/src/migrations/adb.rs::TypeResolver"]}
{"id": "C07", "title": "Type resolution is sound, and idempotent", "statement": "Each type assigned by resolve_types to a column is one derivable by following primary keys and registered custom types; resolving twice is the same as resolving once.", "quantifier": "all schemas", "why_tests_cant": "Depends on arbitrary chains of deferred types and on table-name order.", "anchors": ["butane_core/src/migrations/adb.rs::ADB::resolve_types", "butane_core/src/migrations/adb.rs::AColumn::resolve_type"]}
{"id": "C08", "title": "Type keys survive serialization and are totally ordered", "statement": "Every type key written into types.json is read back as the same key, distinct keys have distinct texts, and the order used for the map is a total order consistent with equality; a text that is not a key is reported as an error.", "quantifier": "all type keys with arbitrary names, all texts", "why_tests_cant": "Unbounded strings; order laws quantify over triples.", "anchors": ["butane_core/src/migrations/adb.rs::TypeKey::serialize", "butane_core/src/migrations/adb.rs::TypeKeyVisitor::visit_str", "butane_core/src/migrations/adb.rs::TypeKey::cmp"]}
{"id": "C09", "title": "Different many-to-many fields use different link tables", "statement": "Two different Many fields (different model table or different field) are stored in different link tables, and a link table is never the table of a model.", "quantifier": "all pairs of (table name, field name)", "why_tests_cant": "Name collisions depend on arbitrary user-chosen names.", "anchors": ["butane_core/src/migrations/adb.rs::create_many_table", "butane_core/src/codegen/dbobj.rs::many_table_lit"]}
{"id": "C10", "title": "A filter! expression selects the rows it says", "statement": "For every filter expression that the filter! macro accepts without embedded Rust blocks, the SQL text sent to the database, read with SQL operator precedence and the bound values, is true for a row exactly when the expression is true of that row (with SQL NULL semantics).", "quantifier": "all filter expressions of any nesting, all database contents and rows, all values", "why_tests_cant": "Every shape of nesting changes the precedence structure of the generated text.", "anchors": ["butane_codegen/src/filter.rs::handle_expr", "butane_core/src/db/helper.rs::sql_for_expr", "butane_core/src/query/fieldexpr.rs"]}
{"id": "C11", "title": "A programmatic boolean expression selects the rows it says", "statement": "For every boolean query expression that can be built with the public query types (And, Or, Not, AllOf, In, subqueries), the generated SQL is true for a row exactly when the expression is.", "quantifier": "all boolean expressions, all rows and database contents", "why_tests_cant": "Arbitrary nesting depth and combination of operators.", "anchors": ["butane_core/src/db/helper.rs::sql_for_expr", "butane_core/src/query/mod.rs::BoolExpr"]}
{"id": "C12", "title": "Values are bound, never spliced, and line up with placeholders", "statement": "The SQL text generated for an expression does not depend on the content of any text, blob, real, date, JSON or other non-integer value in it; the number of placeholders equals the number of bound values and the k-th placeholder receives the k-th value of the expression in reading order.", "quantifier": "all expressions and all values", "why_tests_cant": "Injection freedom quantifies over all possible contents of all values.", "anchors": ["butane_core/src/db/helper.rs::sql_for_expr", "butane_core/src/db/sqlite.rs::SQLitePlaceholderSource", "butane_core/src/db/pg.rs::PgPlaceholderSource"]}
{"id": "C13", "title": "PostgreSQL placeholders are numbered consecutively", "statement": "A statement with n bound values uses placeholders $1 to $n, in order, for every n.", "quantifier": "all n", "why_tests_cant": "The counter width matters only for large n that no test reaches.", "anchors": ["butane_core/src/db/pg.rs::PgPlaceholderSource::next_placeholder"]}
{"id": "C14", "title": "Null and membership tests mean what they say", "statement": "Comparing a nullable field for (in)equality with None selects exactly the rows where the field is (not) null; is_in selects exactly the rows whose value is in the given list, for every list including the empty one.", "quantifier": "all fields, rows and value lists of every length", "why_tests_cant": "List length is unbounded and the empty list is a boundary case.", "anchors": ["butane_core/src/db/helper.rs::sql_for_expr", "butane_core/src/query/fieldexpr.rs::is_in"]}
{"id": "C15", "title": "Insert, update and upsert statements put each value into its own column", "statement": "For every list of columns and values of equal length, the generated INSERT and upsert store the i-th value in the i-th column, and the generated UPDATE assigns the i-th value to the i-th column of exactly the row with the given primary key.", "quantifier": "all column lists, values and table contents", "why_tests_cant": "Alignment of text, placeholders and parameters for any number of columns.", "anchors": ["butane_core/src/db/helper.rs::sql_insert_with_placeholders", "butane_core/src/db/helper.rs::sql_update_with_placeholders", "butane_core/src/db/sqlite.rs::sql_insert_or_update", "butane_core/src/db/pg.rs::sql_insert_or_replace_with_placeholders"]}
{"id": "C16", "title": "Query limit, offset and ordering", "statement": "load returns the matching rows, sorted by the order terms with earlier terms taking precedence, without the first offset rows and cut to limit rows; offset without limit returns all remaining rows on both backends.", "quantifier": "all queries built by any sequence of builder calls, all table contents", "why_tests_cant": "Combinations of builder calls in any order over arbitrary data.", "anchors": ["butane_core/src/query/mod.rs::Query", "butane_core/src/db/sqlite.rs::query", "butane_core/src/db/pg.rs::query"]}
{"id": "C17", "title": "load_first is the first element of load", "statement": "load_first returns the first object load would return, or none if load would return nothing, for every query.", "quantifier": "all queries and table contents", "why_tests_cant": "Depends on the interaction of limit, offset and order.", "anchors": ["butane_core/src/query/mod.rs::load_first"]}
{"id": "C18", "title": "Query delete removes exactly the objects the query matches", "statement": "delete on a query removes exactly the objects that loading the same query would return, and returns their number.", "quantifier": "all queries and table contents", "why_tests_cant": "Interaction of filter, limit and offset on arbitrary data.", "anchors": ["butane_core/src/query/mod.rs::delete"]}
{"id": "C19", "title": "Objects behave like entries of a map keyed by primary key", "statement": "For a model without automatic primary key, any history of save, delete, get and try_get behaves like a map from primary key to object: get returns the last saved state, NoSuchObject after a delete, and no operation affects another key.", "quantifier": "all histories of operations, all objects and keys", "why_tests_cant": "Unbounded histories.", "anchors": ["butane_core/src/lib.rs::DataObjectOps", "butane_core/src/db/sqlite.rs::sql_insert_or_update"]}
{"id": "C20", "title": "Automatic primary keys", "statement": "Saving an object with an uninitialised automatic key inserts exactly one new row with a key no other row has and stores that key in the object; saving it again updates that row only and never inserts another.", "quantifier": "all histories of saves, deletes and modifications", "why_tests_cant": "Unbounded histories and key reuse after deletes.", "anchors": ["butane_core/src/lib.rs::DataObjectOps::save", "butane_core/src/autopk.rs"]}
{"id": "C21", "title": "Saving with an initialised key makes the object present", "statement": "After a successful save of an object whose automatic key is initialised, get with that key returns the object (the documentation promises an upsert).", "quantifier": "all objects and table contents", "why_tests_cant": "Whether the row exists is a property of the history.", "anchors": ["butane_core/src/lib.rs::DataObjectOps::save"]}
{"id": "C22", "title": "Saving a Many changes only the owner's links", "statement": "After add and remove calls followed by save, the links of this owner are the previous ones plus the added ones minus the removed ones, and the links of every other owner are unchanged.", "quantifier": "all histories of add/remove/save/delete/set, any number of owners", "why_tests_cant": "Interference between owners depends on shared items.", "anchors": ["butane_core/src/many.rs::ManyOps::save"]}
{"id": "C23", "title": "Setting and deleting a Many", "statement": "set replaces the links of this owner by exactly the given values and delete removes all of them; neither touches the links of another owner, and pending additions or removals are discarded.", "quantifier": "all link tables, owners, values and pending changes", "why_tests_cant": "Arbitrary prior state.", "anchors": ["butane_core/src/many.rs::ManyOps::set", "butane_core/src/many.rs::ManyOps::delete"]}
{"id": "C24", "title": "Loading a Many with unsaved changes", "statement": "Loading a Many shows each linked object once: the saved links plus the unsaved additions, without the unsaved removals.", "quantifier": "all link tables and pending changes", "why_tests_cant": "Depends on overlap between pending and saved values.", "anchors": ["butane_core/src/many.rs::load_query_uncached"]}
{"id": "C25", "title": "A failed Many save can be retried without losing additions", "statement": "If saving fails at any point, the additions not yet written remain pending, so that saving again writes them.", "quantifier": "all failure points and pending lists", "why_tests_cant": "Every crash point of the loop.", "anchors": ["butane_core/src/many.rs::ManyOps::save"]}
{"id": "C26", "title": "Many values are never stale", "statement": "get on a Many returns values only if they were loaded after the last add or remove; using an uninitialised Many fails with NotInitialized (save) or yields nothing (load); adding an object that has no key yet is rejected and changes nothing.", "quantifier": "all sequences of operations", "why_tests_cant": "Unbounded operation sequences.", "anchors": ["butane_core/src/many.rs::Many"]}
{"id": "C27", "title": "A foreign key keeps referring to one object", "statement": "Through any sequence of pk, get, load and to_sql calls a foreign key reports the same primary key; load returns the object with that key, fetches at most once on success, and a failed load leaves it unloaded and retryable.", "quantifier": "all sequences of calls and database responses", "why_tests_cant": "Unbounded call sequences with failures in between.", "anchors": ["butane_core/src/fkey.rs::ForeignKey", "butane_core/src/util.rs::get_or_init_once_lock"]}
{"id": "C28", "title": "Concurrent loads agree", "statement": "When any number of threads load the same lazily loaded value concurrently, all successful callers get the same value, it never changes afterwards and no caller panics, in every interleaving.", "quantifier": "all interleavings of any number of threads", "why_tests_cant": "Schedules cannot be enumerated by tests.", "anchors": ["butane_core/src/util.rs::get_or_init_once_lock"]}
{"id": "C29", "title": "Concurrent use of a foreign key as a value does not panic", "statement": "Any number of threads may convert the same foreign key to a database value concurrently; all get the key of the referenced object and none panics, in every interleaving.", "quantifier": "all interleavings of any number of threads", "why_tests_cant": "Race window between check and set.", "anchors": ["butane_core/src/fkey.rs::ForeignKey::ensure_valpk"]}
{"id": "C30", "title": "The migration list is the chain from first to latest", "statement": "all_migrations returns the migrations reached from the latest by following 'from' links, oldest first; migrations_since(m) returns exactly the part after m, and fails exactly when m is not in that chain.", "quantifier": "all collections of migrations", "why_tests_cant": "Arbitrary link structures, including broken links and cycles.", "anchors": ["butane_core/src/migrations/mod.rs::Migrations::all_migrations", "butane_core/src/migrations/mod.rs::Migrations::migrations_since"]}
{"id": "C31", "title": "Migrating applies exactly the unapplied migrations in order", "statement": "After a successful migrate, every migration of the chain is recorded as applied and the schema is that of the latest migration; migrations already applied are not applied again; migrating a second time does nothing.", "quantifier": "all chains and all applied prefixes", "why_tests_cant": "Arbitrary chain length and starting point.", "anchors": ["butane_core/src/migrations/mod.rs::Migrations::migrate", "butane_core/src/migrations/mod.rs::Migrations::unapplied_migrations", "butane_core/src/migrations/mod.rs::Migrations::last_applied_migration"]}
{"id": "C32", "title": "Migrations are all-or-nothing at every failure point", "statement": "If the process stops or a statement fails at any point during migrate, the database is in the state after some number of complete migrations, the applied records say exactly which, and a later migrate completes to the same final state.", "quantifier": "all chains, all failure points", "why_tests_cant": "Every crash point.", "anchors": ["butane_core/src/migrations/migration.rs::Migration::apply", "butane_core/src/migrations/mod.rs::Migrations::migrate"]}
{"id": "C33", "title": "unmigrate undoes everything that was applied", "statement": "After a successful unmigrate no migration of the chain is recorded as applied and the schema is the one before the first migration; migrate followed by unmigrate followed by migrate ends in the same state as migrate.", "quantifier": "all chains and applied prefixes", "why_tests_cant": "Arbitrary chain length.", "anchors": ["butane_core/src/migrations/mod.rs::Migrations::unmigrate", "butane_core/src/migrations/migration.rs::Migration::downgrade"]}
{"id": "C34", "title": "Creating migrations extends the chain", "statement": "After creating a migration from the latest one, it is the new latest, the previous chain is its prefix and nothing else changes; creating one when nothing changed returns false and changes nothing.", "quantifier": "all histories of creations", "why_tests_cant": "Unbounded histories.", "anchors": ["butane_core/src/migrations/mod.rs::create_migration_to", "butane_core/src/migrations/memmigrations.rs::add_migration", "butane_core/src/migrations/fsmigrations.rs::add_migration"]}
{"id": "C35", "title": "A stored migration remembers the complete schema", "statement": "For migrations stored on disk, where only modified tables are written and the others are recorded by pointing to an older migration, the schema read back for every migration of the chain is the schema it was created with.", "quantifier": "all histories of created migrations", "why_tests_cant": "Indirection through any number of older migrations.", "anchors": ["butane_core/src/migrations/fsmigrations.rs::add_unmodified_table", "butane_core/src/migrations/fsmigrations.rs::FsMigration::db"]}
{"id": "C36", "title": "Copying a migration preserves it", "statement": "Copying a migration (as done when embedding) preserves its predecessor, schema and the SQL for every backend.", "quantifier": "all migrations", "why_tests_cant": "Arbitrary tables, types and backends.", "anchors": ["butane_core/src/migrations/mod.rs::copy_migration", "butane_core/src/migrations/memmigrations.rs"]}
{"id": "C37", "title": "Generated SQLite migration SQL does what the operations say", "statement": "Executing the SQL generated for SQLite for the operations of diff(from, to) on a database with schema from gives a database with schema to, and every row keeps the values of the columns that exist before and after.", "quantifier": "all pairs of schemas and all data", "why_tests_cant": "Table rebuilds interleave with other operations on the same table.", "anchors": ["butane_core/src/db/sqlite.rs::create_migration_sql", "butane_core/src/db/sqlite.rs::change_column", "butane_core/src/db/sqlite.rs::copy_table"]}
{"id": "C38", "title": "Generated PostgreSQL migration SQL does what the operations say", "statement": "Executing the SQL generated for PostgreSQL for the operations of diff(from, to) on a database with schema from gives a database with schema to.", "quantifier": "all pairs of schemas", "why_tests_cant": "Every combination of changed column attributes.", "anchors": ["butane_core/src/db/pg.rs::create_migration_sql", "butane_core/src/db/pg.rs::change_column"]}
{"id": "C39", "title": "Literals in migration SQL denote the value", "statement": "The SQL literal generated for a column default denotes exactly that value, for every value.", "quantifier": "all values", "why_tests_cant": "Arbitrary text contents.", "anchors": ["butane_core/src/db/helper.rs::sql_literal_value", "butane_core/src/db/helper.rs::column_default"]}
{"id": "C40", "title": "Field values survive the conversion to and from database values", "statement": "For every supported field type (booleans, all integer widths, text, bytes, options), converting a value to a database value and back gives the same value.", "quantifier": "all values of all supported types", "why_tests_cant": "Value ranges are too large to enumerate.", "anchors": ["butane_core/src/sqlval.rs"]}
{"id": "C41", "title": "Reading a number that does not fit is an error", "statement": "Converting a database integer that does not fit in the field's type is reported as an error rather than silently changed.", "quantifier": "all integers and field types", "why_tests_cant": "Boundary values of each width.", "anchors": ["butane_core/src/sqlval.rs::impl_basic_from_sql", "butane_core/src/db/sqlite.rs::sql_valref_from_rusqlite"]}
{"id": "C42", "title": "SQLite storage round trip", "statement": "A database value written to SQLite in a column of its type is read back as the same value.", "quantifier": "all values and column types", "why_tests_cant": "Value ranges.", "anchors": ["butane_core/src/db/sqlite.rs::sqlvalref_to_sqlite", "butane_core/src/db/sqlite.rs::sql_valref_from_rusqlite"]}
{"id": "C43", "title": "Objects survive the trip through a row", "statement": "For every model, the columns, the values written and the fields read back line up, so that the object read from the row that was written for it is equal to it; a row with the wrong number of columns is rejected.", "quantifier": "all models (any number, kind and order of fields) and objects", "why_tests_cant": "The generated code is different for each model.", "anchors": ["butane_core/src/codegen/dbobj.rs::impl_dbobject", "butane_core/src/codegen/dbobj.rs::columns", "butane_core/src/codegen/dbobj.rs::push_values"]}
{"id": "C44", "title": "Enum fields survive the trip through text", "statement": "A derived enum field type stores each variant as a distinct text and reads it back; any other text is an error.", "quantifier": "all enums and texts", "why_tests_cant": "Arbitrary set of variants.", "anchors": ["butane_codegen/src/lib.rs::derive_field_type_for_enum"]}
{"id": "C45", "title": "A transaction is finished at most once and is all-or-nothing", "statement": "After commit or rollback every further use of the transaction object fails and has no effect; changes become visible exactly if commit succeeds; dropping an unfinished transaction discards them.", "quantifier": "all sequences of operations", "why_tests_cant": "Arbitrary histories.", "anchors": ["butane_core/src/db/sqlite.rs::SqliteTransaction", "butane_core/src/db/pg.rs::PgTransaction"]}
{"id": "C46", "title": "The async adapter executes calls one at a time in order", "statement": "Operations issued through the async wrapper of a synchronous connection run one at a time, in the order they were submitted, each exactly once, and each caller gets the result of its own operation, even if other callers give up waiting.", "quantifier": "all schedules of callers and the worker", "why_tests_cant": "Schedules cannot be enumerated by tests.", "anchors": ["butane_core/src/db/adapter.rs::AsyncAdapterEnv"]}
{"id": "C47", "title": "with_sync never loses the connection silently", "statement": "After with_sync the async connection is either the same usable connection or reports PoisonedConnection for every operation; it stays usable whenever the callback returns, even with an error.", "quantifier": "all callbacks and failure points", "why_tests_cant": "Every failure point.", "anchors": ["butane_core/src/db/mod.rs::ConnectionAsync::with_sync", "butane_core/src/db/dummy.rs"]}
{"id": "C48", "title": "Iterating rows", "statement": "Iterating a buffered result returns each row once, in order, then reports the end forever; current returns the row most recently returned.", "quantifier": "all row lists and call sequences", "why_tests_cant": "Arbitrary call sequences.", "anchors": ["butane_core/src/db/connmethods.rs::VecRows"]}
{"id": "C49", "title": "Connection strings", "statement": "Adding parameters to a connection string keeps all existing parameters and adds the new one exactly once, so that reading the string back gives the parameters in order.", "quantifier": "all connection strings and parameter lists", "why_tests_cant": "Arbitrary strings.", "anchors": ["butane_core/src/db/mod.rs::ConnectionSpec::add_parameter"]}
{"id": "C50", "title": "CLI migrate and rollback stop where asked", "statement": "Migrating to a named migration applies the pending migrations up to and including it; rolling back to a named migration undoes exactly the applied ones after it, newest first; an impossible target is reported as an error.", "quantifier": "all chains, applied prefixes and targets", "why_tests_cant": "Arbitrary chain length and target positions.", "anchors": ["butane_cli/src/lib.rs::migrate", "butane_cli/src/lib.rs::unmigrate_to"]}
{"id": "C51", "title": "Detaching the latest migration", "statement": "Detaching the latest migration makes its predecessor the latest, keeps the rest of the chain, is refused for the only migration and for one that is applied to the database the tool is connected to.", "quantifier": "all chains and applied prefixes", "why_tests_cant": "Arbitrary chains.", "anchors": ["butane_core/src/migrations/fsmigrations.rs::detach_latest_migration", "butane_cli/src/lib.rs::detach_latest_migration"]}
{"id": "C52", "title": "Collapsing migrations", "statement": "Collapsing replaces the chain by one migration from the empty schema to the schema of the last applied migration and records it as applied, leaving the database schema alone; no unapplied schema change is lost.", "quantifier": "all chains and applied prefixes", "why_tests_cant": "Arbitrary chains.", "anchors": ["butane_cli/src/lib.rs::collapse_migrations"]}
{"id": "C53", "title": "Chained query builder calls", "statement": "A query built by any chain of filter, limit, offset and order calls has the last limit and offset given, all order terms in the order given, and matches exactly the objects that satisfy every condition given.", "quantifier": "all chains of builder calls, all table contents", "why_tests_cant": "Chains of any length.", "anchors": ["butane_core/src/query/mod.rs::Query"]}
{"id": "C54", "title": "Ordered loading of a Many", "statement": "load_ordered returns the linked objects in the requested order of their keys.", "quantifier": "all link tables, pending changes, previous calls and directions", "why_tests_cant": "Depends on what was loaded before and on pending values.", "anchors": ["butane_core/src/many.rs::ManyOps::load_ordered"]}
{"id": "C55", "title": "Values of a Many after saving", "statement": "After a successful save, get either fails or returns exactly the objects that are now linked.", "quantifier": "all link tables, pending changes and previous loads", "why_tests_cant": "Depends on the order of load, remove and save.", "anchors": ["butane_core/src/many.rs::ManyOps::save", "butane_core/src/many.rs::Many::get"]}
{"id": "C56", "title": "Foreign key equality does not depend on loading", "statement": "Comparing a foreign key with a key, an object or another foreign key gives the same answer whether or not it has been loaded.", "quantifier": "all keys, all load states", "why_tests_cant": "Depends on the history of the foreign key and on the state of the other key.", "anchors": ["butane_core/src/fkey.rs::PartialEq for ForeignKey"]}
{"id": "C57", "title": "Embedded migrations are what was embedded", "statement": "The source generated for embedding migrations compiles to the migrations it was generated from.", "quantifier": "all migrations", "why_tests_cant": "Depends on which texts occur in names, SQL and defaults.", "anchors": ["butane_cli/src/lib.rs::embed"]}
{"id": "C58", "title": "PostgreSQL storage round trip", "statement": "A database value sent to PostgreSQL for a column of its type is read back as the same value; a value of another type is reported as an error and not converted.", "quantifier": "all values and column types", "why_tests_cant": "Value ranges.", "anchors": ["butane_core/src/db/pg.rs::ToSql for SqlValRef", "butane_core/src/db/pg.rs::FromSql for SqlValRef"]}
{"id": "C59", "title": "Rows read through the async adapter", "statement": "A query through the async wrapper of a synchronous connection gives the same rows in the same order with the same values as the connection itself; if a row cannot be read the query fails as a whole.", "quantifier": "all results and readers", "why_tests_cant": "Arbitrary rows and values.", "anchors": ["butane_core/src/db/connmethods.rs::vec_from_backend_rows", "butane_core/src/db/connmethods.rs::VecRow"]}
{"id": "C60", "title": "Choosing the backend of a connection string", "statement": "A connection string is given to the documented backend: by its scheme if it has one, to PostgreSQL if it is a list of keys and values, to SQLite otherwise; sqlite: becomes file: and libsql: becomes turso:, everything else is kept.", "quantifier": "all strings", "why_tests_cant": "Arbitrary strings.", "anchors": ["butane_core/src/db/mod.rs::ConnectionSpec"]}
{"id": "C61", "title": "Command histories keep the chain of migrations", "statement": "After any sequence of builds and of commands (make a migration, detach, collapse, add or remove a backend), each of which may fail at any point, the directory of migrations holds a chain of distinct migrations, each with a predecessor and a readable schema, that ends in the latest.", "quantifier": "all histories of commands, failures and databases", "why_tests_cant": "Histories are unbounded, and a failure can occur between any two files.", "anchors": ["butane_cli/src/lib.rs", "butane_core/src/migrations/fsmigrations.rs"]}
{"id": "C62", "title": "Adding a backend", "statement": "Adding a backend gives every migration the SQL of that backend for the step from its predecessor, and back, and changes nothing else: chain, schemas and the SQL of other backends are kept, even if the command fails.", "quantifier": "all chains, backends and failures", "why_tests_cant": "Arbitrary chains and schemas.", "anchors": ["butane_cli/src/lib.rs::add_backend"]}
{"id": "C63", "title": "Removing a backend", "statement": "Removing a backend removes its SQL from every migration and nothing else; the last backend cannot be removed.", "quantifier": "all chains and backends", "why_tests_cant": "Arbitrary chains.", "anchors": ["butane_cli/src/lib.rs::remove_backend"]}
{"id": "C64", "title": "Making migrations again", "statement": "Regenerating the migrations keeps the chain and every schema, whether it succeeds or fails; afterwards each migration has SQL for exactly the backends of the latest one, generated from its own schema and that of its predecessor. Nothing is lost when the process stops half-way.", "quantifier": "all directories reachable by using the tool (any versions of it), all backends, failures and crash points", "why_tests_cant": "Arbitrary chains with tables shared between directories, and every point of failure.", "anchors": ["butane_cli/src/lib.rs::regenerate_migrations", "butane_core/src/migrations/fsmigrations.rs::FsMigration::delete_db"]}
{"id": "C65", "title": "Making a migration", "statement": "A migration that is made with the tool becomes the latest, with the schema of the code and SQL for exactly the backends of its predecessor (for a first one: of the connection); it is made exactly if the schema of the code differs from that of the latest; otherwise, and on errors, the chain stays as it is. A name that is taken is refused.", "quantifier": "all directories reachable by using the tool, all schemas, backends and failures", "why_tests_cant": "Arbitrary chains and schemas.", "anchors": ["butane_cli/src/lib.rs::make_migration", "butane_cli/src/lib.rs::load_backends", "butane_core/src/migrations/mod.rs::create_migration"]}
{"id": "C66", "title": "Filters on Turso", "statement": "On Turso, loading a query returns exactly the rows for which the whole filter is true, with the query's order, limit and offset, although its subqueries are run as statements of their own; deleting with the same query removes exactly these rows.", "quantifier": "all filters, stored rows, answers the database may give, and histories of the database between the statements of one call", "why_tests_cant": "Arbitrary nesting of conditions, arbitrary contents, and changes by others between the statements of one call.", "anchors": ["butane_core/src/db/turso.rs::transform_subqueries", "butane_core/src/db/turso.rs::query", "butane_core/src/db/turso.rs::delete_where"]}
{"id": "C67", "title": "Turso storage round trip", "statement": "A row of values stored on Turso in columns of their types is read back as the same values; a result is read completely or the query fails; asking a row for a value of another type is an error.", "quantifier": "all rows, column types and results", "why_tests_cant": "Value ranges, arbitrary rows.", "anchors": ["butane_core/src/db/turso.rs::sqlval_to_turso", "butane_core/src/db/turso.rs::turso_value_to_sqlval_typed", "butane_core/src/db/turso.rs::query", "butane_core/src/db/turso.rs::TursoRow"]}
{"id": "C68", "title": "Executing a script on Turso", "statement": "A script of several statements passed to execute on Turso is executed statement by statement, in order, until one fails.", "quantifier": "all scripts and databases", "why_tests_cant": "Scripts are arbitrary texts, in which semicolons can occur anywhere.", "anchors": ["butane_core/src/db/turso.rs::execute"]}
{"id": "C69", "title": "Migrations on Turso", "statement": "Executing the SQL generated for the change from one schema to another on a Turso database with the old schema gives a database with the new schema, in which the rows of kept tables are kept with the values of kept columns, and new columns have their default.", "quantifier": "all pairs of schemas, all contents", "why_tests_cant": "Arbitrary schemas and rows.", "anchors": ["butane_core/src/db/turso.rs::create_migration_sql", "butane_core/src/db/turso.rs::sql_for_op", "butane_core/src/db/turso.rs::create_table", "butane_core/src/db/turso.rs::change_column", "butane_core/src/db/turso.rs::execute"]}
{"id": "C70", "title": "Transactions on Turso", "statement": "On Turso a transaction is finished at most once; its statements become visible together, exactly if a commit reports success; and when the transaction object is gone, however it ended, the connection is usable again: what a closed connection leaves behind is what its own statements and its committed transactions did, in order.", "quantifier": "all histories of statements and transactions on a connection, with failing statements and commits, dropped in any runtime", "why_tests_cant": "Arbitrary histories, failures of COMMIT, objects dropped outside a runtime.", "anchors": ["butane_core/src/db/turso.rs::TursoTransaction", "butane_core/src/db/turso.rs::TursoConnection::transaction"]}
{"id": "C71", "title": "The key an insert returns on Turso", "statement": "Saving a new object with an automatic key on Turso gives it the key of its own row.", "quantifier": "all orders of the requests of all calls that share a connection, all tables and keys", "why_tests_cant": "Schedules of concurrent calls on one connection.", "anchors": ["butane_core/src/db/turso.rs::insert_returning_pk"]}
{"id": "C72", "title": "The schema recorded for a crate is the one its code uses", "statement": "For every crate, the tables the macros record are those of its models: one column for each field stored in the row, in order, with the name, SQL type, nullability, key, uniqueness, default and reference that the field declares, and one link table for each Many field with the keys of both models; and the table name, columns, key column and automatic key that the generated code uses are those of the recorded table.", "quantifier": "all crates: all sets of models, type aliases and derived types, all field types built from the documented ones, all cargo features", "why_tests_cant": "The macros see one item at a time, and types are resolved by name later; there are unboundedly many crates.", "anchors": ["butane_core/src/codegen/mod.rs::get_deferred_sql_type", "butane_core/src/codegen/mod.rs::get_primitive_sql_type", "butane_core/src/codegen/migration.rs::create_atables", "butane_core/src/codegen/dbobj.rs::impl_dbobject", "butane_core/src/migrations/adb.rs::resolve_types"]}
{"id": "C73", "title": "What is recorded depends only on the source", "statement": "Compiling a crate records the same schema in whatever order its items are expanded, and whether it was compiled before, possibly in an earlier version, or not.", "quantifier": "all crates, all orders of their items, all earlier versions", "why_tests_cant": "Histories of edits and the order in which the compiler expands macros are unbounded.", "anchors": ["butane_core/src/codegen/migration.rs::write_table_to_disk", "butane_core/src/codegen/mod.rs::model_with_migrations", "butane_core/src/codegen/mod.rs::add_custom_type"]}
{"id": "C74", "title": "A model that is rejected is not recorded", "statement": "A model that the macro rejects leaves the recorded schema as it was, one that it accepts has its table recorded, and neither changes what is recorded for others.", "quantifier": "all models, all recorded schemas", "why_tests_cant": "There are unboundedly many models and schemas.", "anchors": ["butane_core/src/codegen/mod.rs::dataobject_impl", "butane_core/src/codegen/migration.rs::write_table_to_disk", "butane_core/src/codegen/dbobj.rs::verify_fields"]}
{"id": "C75", "title": "Several compilers at a time", "statement": "Compilers (and language servers) that expand the macros of the same crate at the same time leave the types and tables that one after the other would leave; none of them fails because of the others, none waits for ever, and reading the schema meanwhile gives a state between two of their operations; also when one of them is killed.", "quantifier": "all numbers of processes, programs, interleavings of their accesses to files, and points at which they are killed", "why_tests_cant": "There are unboundedly many schedules, and the windows are short.", "anchors": ["butane_core/src/migrations/fsmigrations.rs::add_type", "butane_core/src/migrations/fsmigrations.rs::add_modified_table", "butane_core/src/migrations/fsmigrations.rs::db", "butane_core/src/migrations/fsmigrations.rs::MigrationLock"]}
{"id": "C76", "title": "The embedded migrations are those on disk", "statement": "Once `butane embed` has put the migrations into the source of the program, the program has, after every command of the tool, exactly the migrations that are on disk: the same chain, schemas and SQL for every backend.", "quantifier": "all histories of commands, schemas, backends, databases and failures", "why_tests_cant": "The result depends on the whole history of commands, and on where one of them fails.", "anchors": ["butane_cli/src/lib.rs::embed", "butane_cli/src/lib.rs::update_embedded", "butane_cli/src/lib.rs::CliState", "butane_cli/src/lib.rs::make_migration", "butane_cli/src/lib.rs::collapse_migrations"]}
{"id": "C77", "title": "The schema of a migrated SQLite database", "statement": "However a project's migrations are made, detached, applied and undone, by the program and with the tool, and whatever fails on the way, the SQLite database has the schema of one of the migrations (or is empty), and the records say which; `migrate` takes it to the schema of the code, if a migration was made for it, and keeps the rows; undoing migrations, by the program or with the tool, takes it back through the schemas of the earlier ones, keeping the rows at each step, and undoing all leaves no table.", "quantifier": "all histories of builds, migrations, writes and commands; all schemas, rows, databases and failures", "why_tests_cant": "The database depends on the whole history, and the SQL in each migration on the schemas before and after it; a test has one history.", "anchors": ["butane_core/src/migrations/mod.rs::Migrations::migrate", "butane_core/src/migrations/mod.rs::create_migration_to", "butane_core/src/db/sqlite.rs::sql_for_op", "butane_core/src/migrations/adb.rs::diff", "butane_cli/src/lib.rs::make_migration", "butane_cli/src/lib.rs::migrate", "butane_cli/src/lib.rs::rollback"]}
{"id": "C78", "title": "The tables of a migrated SQLite database are those of the code", "statement": "After a crate is compiled, a migration made for it and the database migrated without an error, the SQLite database has exactly the tables of the models of the crate and their link tables, with a column for each field, of the storage class of its Rust type, and with the constraints its attributes ask for; whatever the migrations and the database were before.", "quantifier": "all crates, all earlier histories of builds, migrations and writes, all databases", "why_tests_cant": "It joins the macros, the recorded schema, the comparison of schemas, the SQL and its execution; a test fixes a crate and a history.", "anchors": ["butane_core/src/codegen/migration.rs::create_atables", "butane_core/src/codegen/mod.rs::model_with_migrations", "butane_core/src/migrations/adb.rs::resolve_types", "butane_core/src/migrations/mod.rs::create_migration", "butane_core/src/db/sqlite.rs::create_migration_sql", "butane_cli/src/lib.rs::make_migration", "butane_cli/src/lib.rs::migrate"]}
{"id": "C79", "title": "Objects in an SQLite database are those saved last", "statement": "In an SQLite database with a fitting table for a model, after any sequence of saves and deletes of objects of this model and of models with other tables, looking for an object by its key returns the one last saved with that key, with every stored field as it was, unless it was deleted since; it returns nothing for other keys and never fails; saving changes nothing in an object but a missing automatic key, which then is one no object had.", "quantifier": "all models, all field types, all objects, all sequences of operations, all database contents", "why_tests_cant": "It joins the conversions of every field type, the statement texts, how SQLite reads, converts and stores values, and the conversions back, over histories of any length; a test fixes a few objects of a few models.", "anchors": ["butane_core/src/lib.rs::DataObjectOps::save", "butane_core/src/lib.rs::DataObjectOps::delete", "butane_core/src/lib.rs::DataObjectOps::try_get", "butane_core/src/db/sqlite.rs::insert_returning_pk", "butane_core/src/db/sqlite.rs::insert_or_replace", "butane_core/src/db/sqlite.rs::update", "butane_core/src/db/sqlite.rs::delete_where", "butane_core/src/codegen/dbobj.rs::impl_dbobject"]}
{"id": "C80", "title": "Saving an admissible object succeeds on SQLite", "statement": "Saving an object in an SQLite database with a fitting table succeeds if its values in unique columns are not those of other objects, the objects it refers to are stored, and, when it needs a new key, SQLite has one.", "quantifier": "all models, all objects, all database contents", "why_tests_cant": "Success depends on every statement, constraint and row of the database; a test fixes them.", "anchors": ["butane_core/src/lib.rs::DataObjectOps::save", "butane_core/src/db/sqlite.rs::insert_returning_pk", "butane_core/src/db/sqlite.rs::insert_or_replace", "butane_core/src/db/sqlite.rs::update"]}
{"id": "C81", "title": "Objects of a compiled crate are stored and found", "statement": "When a crate is compiled, its first migration made and an empty SQLite database migrated, then for every model of the crate, after any sequence of saves and deletes of objects of this and other models, looking for an object by its key gives the one last saved with that key unless it was deleted since, and an object the database admits can be saved. After later migrations, with any history of the project, every model can be stored and looked up as well.", "quantifier": "all crates (models, aliases, derived types), all objects, all sequences of operations, all histories of migrations", "why_tests_cant": "It joins macro expansion, the files of the migration, the SQL text of the schema, SQLite reading it, and the SQL of every operation: a test fixes one crate and a few objects.", "anchors": ["butane_codegen/src/lib.rs::model", "butane_core/src/codegen/migration.rs::create_atables", "butane_core/src/codegen/dbobj.rs::impl_dbobject", "butane_cli/src/lib.rs::make_migration", "butane_core/src/migrations/mod.rs::migrate", "butane_core/src/db/sqlite.rs::create_migration_sql", "butane_core/src/lib.rs::DataObjectOps::save"]}
{"id": "C82", "title": "Objects survive changes of their model", "statement": "When the database is up to date and stores objects of a model, and the code is then changed and compiled, a migration made and applied, every object of the model is still found by its key, and no others; fields that were kept have the values they had, new fields have their declared default, or None, or the zero of their type. A model that is new has no objects.", "quantifier": "all crates, all histories of the project, all objects, all changes that keep the key, the table, and the types of the fields they keep", "why_tests_cant": "It joins the macros of the old and the new code, the difference of two schemas, the SQL of the migration, what SQLite does with existing rows, and how rows are read back: every pair of models and every set of objects counts.", "anchors": ["butane_core/src/migrations/adb.rs::diff", "butane_core/src/db/sqlite.rs::create_migration_sql", "butane_core/src/db/sqlite.rs::add_column", "butane_core/src/db/sqlite.rs::change_column", "butane_core/src/db/helper.rs::column_default", "butane_core/src/codegen/dbobj.rs::fields_for_row", "butane_core/src/lib.rs::DataObject::try_get"]}
{"id": "C83", "title": "Queries find the objects that the filter describes", "statement": "Whatever objects of whatever models were saved and deleted before, a query with a filter returns exactly the stored objects of the model that the filter describes, each once and with the values it was saved with, in an order that the order terms allow, cut to the page of offset and limit: a comparison is about the field of the object, `matches` about the object a foreign key refers to, `contains` about the objects a Many field links to. load_first returns the first of them.", "quantifier": "all models, all histories of saves and deletes, all filters (nested matches and contains), all orders, limits and offsets", "why_tests_cant": "Which objects a filter selects depends on the SQL text, the bound values, how each field is stored, what references point to and what was saved before; every filter shape and every set of objects counts.", "anchors": ["butane_core/src/query/mod.rs::Query", "butane_core/src/query/fieldexpr.rs::FieldExpr", "butane_codegen/src/filter.rs::handle_expr", "butane_core/src/db/sqlite.rs::query", "butane_core/src/db/sqlite.rs::sql_for_expr", "butane_core/src/lib.rs::DataObject", "butane_core/src/codegen/dbobj.rs::fields_for_row"]}
{"id": "C84", "title": "Objects and their Many fields stay together through any history", "statement": "Whatever a program does with its objects on SQLite - saving and deleting them, deleting by query, adding items to Many fields, removing them, saving objects with their Many fields, setting and emptying Many fields, with saves that fail in the middle - the database holds exactly the objects and the links that result from these calls, a query (also with contains) finds exactly the objects described, load of a Many field returns the linked objects that exist and the pending ones, load_ordered ordered by key, and set leaves exactly the given items.", "quantifier": "all models, link tables, histories of calls including failed ones, all filters for deletion and queries", "why_tests_cant": "What a Many field contains depends on every earlier call for any owner, on pending items, and on how keys are stored and compared; only a statement about all histories settles it.", "anchors": ["butane_core/src/many.rs::Many", "butane_core/src/lib.rs::DataObjectOps", "butane_core/src/query/mod.rs::Query::delete", "butane_core/src/codegen/dbobj.rs::impl_dbobject", "butane_core/src/db/sqlite.rs::delete_where"]}
{"id": "C85", "title": "A project keeps its objects through its whole history", "statement": "A project starts without migrations and with an empty SQLite database. Then, in any order and any number of times: programs save and delete objects and change Many fields; the code is changed and compiled; makemigration is run, which makes a migration, finds nothing to do, or fails; the latest migration is detached; other backends are added and removed; and the database is migrated, by the program or with the tool, through any number of migrations, stopping at any of them, or back by undoing migrations. At every moment the database holds exactly the objects and links that should be there: the ones of models and Many fields that stayed are kept, with their values in the fields that stayed and defaults in the new ones; get and queries find exactly them. And if the new code can take over the objects, making the migration and migrating succeed and the history goes on; and if the old code can take them over, so does going back.", "quantifier": "all projects, all sequences of versions of the code, all programs, all failed attempts in between", "why_tests_cant": "Whether an object is still there depends on every version of the code since it was stored, on all migrations made, on the attempts that failed and on everything programs did in between.", "anchors": ["butane_cli/src/lib.rs::make_migration", "butane_core/src/migrations/mod.rs::Migrations::migrate", "butane_core/src/migrations/adb.rs::diff", "butane_core/src/codegen/dbobj.rs::impl_dbobject", "butane_core/src/many.rs::Many", "butane_core/src/query/mod.rs::Query"]}
{"id": "C86", "title": "Clearing the data", "statement": "The command that clears the data deletes all rows of every table of the last applied migration and nothing else: neither the schema nor the record of migrations change, and the project goes on as before without its objects. If it stops before the end, the tables it announced are empty except for the last one, and nothing else has changed. It succeeds whenever a migration is applied and the database can be reached.", "quantifier": "every history of a project on SQLite, every content of the tables with any references between rows, every table where it may stop", "why_tests_cant": "Whether a table can be emptied depends on all rows of all other tables and on the order of the tables; tests have a few rows.", "anchors": ["butane_cli/src/lib.rs: clear_data", "butane_core/src/migrations/mod.rs: last_applied_migration", "butane_core/src/sqlite.rs: delete_where"]}
{"id": "C87", "title": "Objects survive serialization", "statement": "Serializing any field of an object and deserializing it gives the field back: values of every field type, automatic keys (initialised or not), foreign keys (which refer to the same object and are stored as the same value, loaded or not before), and Many fields (which load the objects linked to the owner).", "quantifier": "all field types nested to any depth, all values, all load states, all databases", "why_tests_cant": "Unbounded nesting of types and all values of each; a test fixes one model.", "anchors": ["butane_core/src/fkey.rs::Serialize for ForeignKey", "butane_core/src/fkey.rs::Deserialize for ForeignKey", "butane_core/src/autopk.rs::AutoPk", "butane_core/src/many.rs::Many", "butane_core/src/sqlval.rs::SqlVal"]}
{"id": "C88", "title": "Comparing keys", "statement": "Equality of automatic keys is symmetric and transitive and holds between a key and itself exactly when it is initialised; their order is that of the keys, agrees with equality and is defined exactly between initialised keys. Comparing foreign keys and objects, from either side and in any state of loading, compares the keys of the objects, and a foreign key equals itself.", "quantifier": "all key types with a lawful order, all keys, all load states", "why_tests_cant": "The laws relate two and three arbitrary keys.", "anchors": ["butane_core/src/autopk.rs::PartialEq for AutoPk", "butane_core/src/autopk.rs::PartialOrd for AutoPk", "butane_core/src/fkey.rs::PartialEq for ForeignKey", "butane_core/src/codegen/dbobj.rs::impl_dbobject"]}
{"id": "C89", "title": "PostgreSQL types survive being written down", "statement": "A custom PostgreSQL type, however nested, that is written to a migration is read back as a type with the same name, number, schema and structure, so that the column is declared the same; what has been read once does not change when it is written and read again.", "quantifier": "all types, nested to any depth", "why_tests_cant": "Types nest without bound (arrays of composites of domains ...).", "anchors": ["butane_core/src/custom.rs::SerializablePgType", "butane_core/src/custom.rs::SerializablePgKind", "butane_core/src/custom.rs::SerializablePgField"]}
{"id": "C90", "title": "Describing a migration says exactly what it changes", "statement": "`butane describe` prints, for a migration or for `current`, which tables are new (with the names and types of their columns), which are gone, and for tables that are in both schemas which columns are new, gone or changed, and for a changed column exactly the attributes that differ, each with its old and new value; each table or column is mentioned at most once, nothing that is not a change is mentioned, and nothing that is a change is left out. It prints `No changes` exactly if the two schemas are the same, and for `current` exactly if `makemigration` would find nothing to do. It never panics or stops in the middle on migrations made with the tool.", "quantifier": "every pair of resolved schemas; every directory of migrations that the tool can produce, every migration in it, and every schema of the code", "why_tests_cant": "The schemas, and so the differences, are unbounded; a test describes one migration, and cannot see a kind of change that is never printed.", "anchors": ["butane_cli/src/lib.rs: print_column_diff, print_ops, describe_current_migration, describe_migration", "butane_core/src/migrations/adb.rs: diff"]}
{"id": "C91", "title": "Objects in a PostgreSQL database", "statement": "After an object is saved on PostgreSQL, getting its key gives the object with all its fields; other keys give what they gave before. Saving a new object with an automatic key gives it a key that no object had, and changes nothing else in it. After an object is deleted its key gives nothing. So after any history of saves and deletes, of this model and of others, getting a key gives the object saved last with it, unless it was deleted since.", "quantifier": "every model with a key (automatic or not), every content of the database that satisfies its constraints, every object, every number a sequence gives, every history of saves and deletes, also of other models, every order in which the server returns rows", "why_tests_cant": "The behaviour depends on the texts of the statements, the types the server gives parameters, the conversions of every field type, the rows there are and the whole history; tests try a few models on a few rows, and need a server.", "anchors": ["butane_core/src/lib.rs: DataObjectOps::save, delete, get, try_get", "butane_core/src/db/pg.rs: insert_returning_pk, insert_or_replace, update, delete_where, query, ToSql, FromSql", "butane_core/src/codegen/dbobj.rs: non_auto_values", "butane_core/src/codegen/mod.rs", "butane_core/src/query/mod.rs: load"]}
{"id": "C92", "title": "What PostgreSQL accepts is saved, and what nothing refers to is deleted", "statement": "Saving an object on PostgreSQL succeeds whenever the object breaks no constraint of the database: its values can be stored, no other object has an equal value in a unique column, the objects it refers to are there (or it refers to itself), and, if it gets an automatic key, the number of the sequence is new. Then getting its key gives the object. Deleting an object with a key succeeds whenever no other row refers to it.", "quantifier": "every model with a key (automatic or not), every content of the database that satisfies its constraints, every object the constraints admit, every number of the sequence", "why_tests_cant": "Whether a statement fails depends on its text, on the types the server gives its parameters, on the conversions of all field types and on all rows of all tables; tests try a few objects.", "anchors": ["butane_core/src/lib.rs: DataObjectOps::save, delete", "butane_core/src/db/pg.rs: insert_returning_pk, insert_or_replace, update, delete_where, ToSql", "butane_core/src/db/helper.rs: sql_insert_values, sql_update", "butane_core/src/codegen/dbobj.rs: non_auto_values"]}
{"id": "C93", "title": "The first migration gives PostgreSQL the tables of the crate", "statement": "In a project without migrations, with a crate that has a model, and with an empty PostgreSQL database: making the first migration succeeds; migrating succeeds if the connection does not fail; then the migration is recorded and the database has, besides the table of records, exactly the tables of the crate: for each model a table with one column per stored field (its type, NOT NULL unless the field is optional, filled by a sequence exactly if the field is an AutoPk), with the model's key, its unique fields and its references; and for each Many a link table with two references.", "quantifier": "every crate that butane can describe to PostgreSQL (any number of models, fields, aliases and references, also cyclic), every name of the migration", "why_tests_cant": "From the source of the models to the catalog of the database the data passes through the macros, files, the comparison of schemas, generated SQL and the server; tests check single models.", "anchors": ["butane_core/src/codegen/migration.rs: create_atables", "butane_cli/src/lib.rs: make_migration, migrate", "butane_core/src/migrations/mod.rs: create_migration", "butane_core/src/migrations/adb.rs: diff, resolve_types", "butane_core/src/db/pg.rs: create_migration_sql, sql_for_op, create_table, create_table_fkey_constraints"]}
{"id": "C94", "title": "From the models of a crate to objects in a PostgreSQL database", "statement": "A crate is compiled, the first migration is made and an empty PostgreSQL database migrated. Then objects of a model, and of other models, are saved and deleted in any order. Whatever was done: looking for an object by its key gives the one saved last with this key, unless it was deleted since; an object the database accepts can be saved; one that nothing refers to can be deleted; and the database still has the tables of the crate.", "quantifier": "every crate that butane can describe to PostgreSQL, every usable model of it, every history of saves and deletes (of this and other models)", "why_tests_cant": "The macros, the migration, the generated SQL, the server and the decoding of rows must agree on names, types and keys for all models; tests use a few.", "anchors": ["butane_core/src/codegen/dbobj.rs: impl_dbobject, impl_dataresult", "butane_core/src/codegen/migration.rs: create_atables", "butane_cli/src/lib.rs: make_migration, migrate", "butane_core/src/db/pg.rs: create_migration_sql, insert_returning_pk, insert_or_replace, update, delete_where, query", "butane_core/src/lib.rs: DataObject::save, delete, get"]}
{"id": "C95", "title": "A PostgreSQL database worked on with migrations has the schema of its last migration", "statement": "Take any history of a project and a PostgreSQL database: the code is built, migrations are made, backends added and removed, the latest migration detached, migrations applied and undone by the program and by the tool, and each command may fail at any point. Then the recorded migrations are the first ones of the project, and the database has, besides the table of records, exactly the tables, columns, keys, unique columns and references of the last recorded migration. Migrating applies the rest in order, and stops at the first failure with the schema of the last migration applied; without an error the database has the newest schema (with the tool and a name: the schema of that migration). It succeeds if every change is one PostgreSQL can make. Making a migration succeeds when the code changed; after it is applied the database has the tables of the code, and of the crate. Undoing all migrations leaves no table.", "quantifier": "every history of commands, every crash or failure of a connection, every sequence of schemas butane can describe to PostgreSQL, any number of tables and columns, every choice of what rows permit at each step", "why_tests_cant": "It needs every migration of every history to start from the schema the one before it ended with, after any failures; tests run a few migrations that succeed.", "anchors": ["butane_core/src/migrations/mod.rs: migrate, unmigrate, apply, downgrade, migrations_since", "butane_core/src/migrations/migration.rs: Migration", "butane_core/src/migrations/fsmigrations.rs: FsMigrations, FsMigration", "butane_cli/src/lib.rs: make_migration, migrate, unmigrate, detach_latest_migration, add_backend, remove_backend", "butane_core/src/db/pg.rs: create_migration_sql, execute, sql_for_op", "butane_core/src/migrations/adb.rs: diff"]}
{"id": "C96", "title": "Queries on PostgreSQL find the objects that the filter describes", "statement": "Whatever objects of a model (and of models with other tables) were saved to and deleted from a PostgreSQL database, the table holds exactly the objects that were saved and not deleted since. Loading a query with a filter of comparisons, null tests and lists, joined by and and or, then succeeds and returns exactly the objects the filter describes, each once and with all its fields, in an order that the order terms allow, cut to the page that offset and limit give. Loading the first returns the first object of such a list, or nothing if it is empty. Equality in a filter is equality of the values (except for reals).", "quantifier": "every history of saves and deletes, every model butane accepts, every filter of this kind of any size, every order, limit and offset, every order of rows the server may choose", "why_tests_cant": "The filter, the history and the number of objects are unbounded, and the server may return rows in any order the query allows; tests run a few queries on a few rows.", "anchors": ["butane_core/src/query/mod.rs: QueryOps::load, QueryOps::load_first, fetch", "butane_core/src/query/fieldexpr.rs: FieldExpr", "butane_codegen/src/filter.rs: for_expr", "butane_core/src/db/pg.rs: query, sql_for_expr, pgtype_for_val, sqlval_for_pg_query, check_columns", "butane_core/src/db/helper.rs: sql_for_expr, sql_limit, sql_offset, sql_order", "butane_core/src/lib.rs: DataObjectOps::save, DataObjectOps::delete"]}
{"id": "C97", "title": "Deleting by a query on PostgreSQL", "statement": "When deleting by a query succeeds on a PostgreSQL database, exactly the objects that the filter describes (all, if there is no filter) are gone, all other objects of the model are left with their fields, no other table has changed, and the number returned is that of the objects deleted. It succeeds if no row refers to the table. Loading the same query afterwards finds nothing.", "quantifier": "every database that holds objects of a model (in particular after every history of saves and deletes), every filter of comparisons, null tests and lists joined by and and or, every query", "why_tests_cant": "Filters and the number of objects are unbounded, and the parameters are typed by the server from the columns they are compared with; tests delete a few rows.", "anchors": ["butane_core/src/query/mod.rs: QueryOps::delete", "butane_core/src/db/pg.rs: delete_where, sql_for_expr", "butane_core/src/db/helper.rs: sql_for_expr", "butane_core/src/query/fieldexpr.rs: FieldExpr"]}
{"id": "C98", "title": "The recorded schema is that of the code", "statement": "Whatever versions of a crate were compiled before, completely or with the compiler stopped in the middle, and whatever migrations were made in between: compiling the crate after `butane clean` leaves on disk exactly the schema of its source, and the next migration made has that schema; without `butane clean` the same holds if every table and type name recorded since is still in the source, or if the tables of removed models were deleted with `butane delete table`. Clean and delete table change nothing but the recorded schema; the migrations stay.", "quantifier": "every history of compilations of any versions of the source (also stopped ones), clean, delete table and other commands; every crate the macros accept; every chain of migrations", "why_tests_cant": "What is recorded depends on the whole history of builds in a directory that is updated item by item by macros; tests start from an empty directory.", "anchors": ["butane_core/src/migrations/fsmigrations.rs: clear_current, delete_table, add_modified_table, add_type, db", "butane_cli/src/lib.rs: clean, delete_table, make_migration", "butane_core/src/codegen/migration.rs: write_table_to_disk", "butane_core/src/codegen/mod.rs: model_with_migrations, add_custom_type"]}
{"id": "C99", "title": "What is written inside filter! is what the database is asked for", "statement": "If `filter!(Model, expression)` compiles, the condition it makes is true of exactly the rows of which the expression, as written, is true: fields of the model compared with literals, None and values in braces, `like`, `is_in`, `matches` on references and `contains` on Many fields, combined with && and || in the precedence of Rust, to any depth. The WHERE clause generated from it is accepted by the database and selects these rows. Everything expressible over the fields of the models can be written, and an expression with anything else (parentheses, negation, other operators, methods or code) does not compile.", "quantifier": "every set of model types, every syntax tree Rust can parse the argument into, every database with their tables, every row", "why_tests_cant": "The macro works on syntax trees of any shape and depth, and the result depends on the types of the fields on the way; tests compile a handful of filters.", "anchors": ["butane_codegen/src/filter.rs: for_expr, handle_expr, handle_bin_op, handle_call, handle_in, handle_matches, handle_contains, handle_like, handle_path, handle_block, fieldexpr", "butane_core/src/query/fieldexpr.rs: FieldExpr, ManyFieldExpr", "butane_core/src/codegen/dbobj.rs: add_fieldexprs"]}
{"id": "C100", "title": "A query with filter! finds and deletes the objects of which its text is true", "statement": "On SQLite: a query whose filter is `filter!(Model, text)` loads exactly the saved objects of the model of which the text is true as written, each once, in an order its order terms allow, cut to limit and offset. Fields are compared with the values in the text, `matches` follows a foreign key to the object it refers to and `contains` goes through the objects a Many field links, at any depth. `load_first` returns the first of these objects. Deleting the query leaves exactly the objects of which the text is not true, and everything else as it was; the query then finds nothing. All this holds after any history of saves, deletions and deleted queries.", "quantifier": "every text the macro accepts, every collection of models, saved objects and links, every query with that filter, every set of compatible database functions", "why_tests_cant": "The objects found depend on the text, the types of the fields on the way, the generated SQL and everything saved before; tests run a few filters on a few rows.", "anchors": ["butane_codegen/src/filter.rs: for_expr, handle_expr", "butane_core/src/query/mod.rs: Query::load, Query::load_first, Query::delete", "butane_core/src/query/fieldexpr.rs: FieldExpr, ManyFieldExpr", "butane_core/src/db/sqlite.rs: sql_for_expr"]}
{"id": "C101", "title": "On PostgreSQL, filter! finds and deletes the objects of which its text is true", "statement": "On PostgreSQL: a query whose filter is `filter!(Model, text)`, with a text about the fields of the model itself, loads exactly the saved objects of the model of which the text is true as written, each once, in an order its order terms allow, cut to limit and offset, and does return. `load_first` returns the first of these objects. Deleting the query leaves exactly the objects of which the text is not true and the other tables as they were, returns the number deleted, and succeeds if no row refers to the table; the query then finds nothing. All this holds after any history of saves, deletions and deleted queries.", "quantifier": "every text the macro accepts, every model and set of saved objects, every query with that filter, every server with the comparison laws", "why_tests_cant": "The objects found depend on the text, the types of the fields, the generated SQL and everything saved before; tests run a few filters on a few rows.", "anchors": ["butane_codegen/src/filter.rs: for_expr, handle_expr", "butane_core/src/query/mod.rs: Query::load, Query::load_first, Query::delete", "butane_core/src/query/fieldexpr.rs: FieldExpr", "butane_core/src/db/pg.rs: query, delete_where"]}
