# Formal model of butane: design

The model is written in Lean 4 (core and `Std`, single Mathlib modules only where
needed), one Lake library `Verif` under `lean/`.

## Layout

* `Verif/Common/`  containers and small utilities (sorted association list for
  `BTreeMap`, list lemmas).
* `Verif/Model/`   the code, function by function.  Every definition cites the
  file and lines in `/repo` it models and says what it simplifies.
* `Verif/Spec/`    small specifications, written without the model's helpers.
* `Verif/Proofs/`  helper lemmas.
* `Verif/Props/`   the property theorems, one file per group, with a concrete
  example beside each showing its hypotheses are met.

When the unchanged code violates a property, the negation is proved with a
concrete witness (`..._violated`) and the strongest true part is kept as
`..._partial`.

## Trusted base

* Lean's kernel and the axioms `propext`, `Classical.choice`, `Quot.sound`
  (each theorem depends on a subset of these; nothing else is added, there is no
  `sorry`, `admit`, `native_decide` or `bv_decide`).
* The reading of the Rust code into the model.  The code was not run.
* The behaviour assumed of things outside butane, each written as an explicit
  definition: SQL semantics of the statements butane emits (three valued logic,
  precedence OR < AND < NOT < comparison, LIMIT/OFFSET, upsert), atomicity of a
  database transaction, FIFO channels, `OnceLock`.

## Modelled in general as

* `String` is Lean `String`; byte order of UTF-8 and code point order agree, so
  `BTreeMap<String, _>` is a list sorted by `compare`.
* `i32`/`i64` are Lean `Int32`/`Int64` where width matters, `f64` is its 64 bits
  with IEEE equality, `serde_json::Value`, dates and custom values are opaque
  payloads with decidable equality.
* A panic (`unwrap`, `unreachable!`, `panic!`) is an explicit error value.
* Async functions and their sync twins are generated from the same source by
  `maybe_async_cfg`; the model is of the shared body.

## Plan per property

| id | what is modelled | how it is proved |
|----|------------------|------------------|
| C01 | `adb.rs` schema types, `diff`, `diff_table`, `transform_with` | effect of the operation list projected to one table, then to one column |
| C02 | same | case analysis on the projection; reflexivity of column equality (fails for NaN defaults, stated) |
| C03 | same | composition of C01 with transitivity of schema equivalence |
| C04 | same | invariant over every prefix of the operation list |
| C05 | operations as foreign-key state transitions | witness for the violation; partial theorem for schemas where the referring table goes as well |
| C06 | `resolve_types` loop with explicit fuel | measure argument; invariant; completeness at the fixpoint |
| C07 | same | inductive derivability relation, induction over the run |
| C08 | `TypeKey` (de)serialization and order | round trip on strings, order laws |
| C09 | `create_many_table` naming | witness for the collision; partial for one owner table |
| C10 | filter macro translation, `sql_for_expr`, a SQL condition parser with SQL precedence, three valued evaluation | structural induction: parse of render evaluates like the expression |
| C11 | same | witnesses for missing parentheses; partial for precedence-safe expressions |
| C12 | same | induction; non-interference stated on the text |
| C13 | `PgPlaceholderSource` with its `i8` counter | witness at 127; partial below |
| C14 | same as C10 | evaluation lemmas, witness for the empty list |
| C15 | statement builders, parameters, table update semantics | induction over column lists |
| C16 | `Query` builder, `query` of both backends, SQL select semantics | refinement to filter/sort/drop/take |
| C17 | same | corollary; witness for limit 0 |
| C18 | same | witness with limit; partial without limit/offset |
| C19 | `DataObjectOps` over a table with upsert semantics | refinement to a map, induction over histories |
| C20 | same with automatic keys | invariant over histories |
| C21 | same | witness; partial when the row exists |
| C22 | `Many` state machine over a link table | witness for other owners; partial |
| C23 | same | refinement |
| C24 | same | witness; partial when nothing is pending |
| C25 | same with failing inserts | witness; partial |
| C26 | same | invariant over histories |
| C27 | `ForeignKey` state machine | invariant over histories |
| C28 | interleaving model of `get_or_init_once_lock` | invariant over all schedules |
| C29 | interleaving model of `ensure_valpk` | witness schedule; partial for one thread |
| C30 | `Migrations` default methods over a lookup function | induction on the chain; non-termination on cycles stated |
| C31 | `migrate` with transactional `apply` | induction over the chain |
| C32 | `migrate` with a failure point | induction, all cut points |
| C33 | `unmigrate` | induction |
| C34 | `create_migration_to`, `add_migration` (memory and disk) | case analysis, induction over histories |
| C35 | on-disk layout: tables, `table_bases` | invariant over histories |
| C36 | `copy_migration` | fold lemmas |
| C37 | SQLite statement generation as statement lists, DDL execution on a data model | induction over operations |
| C38 | PostgreSQL statement generation, parsed and executed on a model of the catalog | invariant over the statements of each operation, induction over operations; progress of every statement from what the order of the operations guarantees about keys and references; witnesses for changes that fail or are ignored |
| C39 | `sql_literal_value` with a literal reader | round trip; witness for quotes |
| C40 | `ToSql`/`FromSql` | case analysis |
| C41 | same | witness; partial in range |
| C42 | SQLite value codec | case analysis |
| C43 | generated code as functions of a field list | induction over fields |
| C44 | enum derive | induction over variants |
| C45 | transaction wrapper over a store | induction over histories |
| C46 | channel, worker, callers as a transition system | invariant over schedules |
| C47 | `with_sync` | case analysis over failure points |
| C48 | `VecRows` | induction over calls; witness for `current` |
| C49 | `add_parameter` | induction |
| C50 | CLI `migrate`, `unmigrate_to` | induction; witness for the panic |
| C51 | detach | case analysis |
| C52 | collapse | case analysis; witness for lost changes |
| C53 | `Query` builder calls as a list | induction over the calls; witness for the second filter |
| C54 | `Many::load_ordered` with SQL ordering | exact result; witness after an unordered load |
| C55 | `Many` save with loaded values | exact values after save; witness after remove |
| C56 | `PartialEq` of `ForeignKey` | case analysis; witness for unsaved keys |
| C57 | `embed` output read by a lexer of Rust raw strings | exact condition; witness |
| C58 | PostgreSQL value codec | case analysis; witness for fractions of a microsecond |
| C59 | `vec_from_backend_rows`, `VecRow` | induction over the rows |
| C60 | `ConnectionSpec::try_from`, `from_str` | case analysis on the text; witnesses |
| C61 | CLI commands on the directory of migrations, with failures | invariant over histories (`Reach`) |
| C62 | `add_backend` | induction over the chain, invariant |
| C63 | `remove_backend` | induction over the chain |
| C64 | `regenerate_migrations`, `delete_db` | induction over the chain, exact description of every directory (`FsExact`); witness for a crash |
| C65 | `make_migration`, `load_backends`, `create_migration` | case analysis over the exact description |
| C66 | Turso: `transform_subqueries`, `query`, `delete_where`; the database answers each statement in its state then | induction over the condition; reuse of the statement proofs of C10/C16/C18 |
| C67 | Turso: conversion of values, reading of rows | case analysis over types, induction over rows and columns |
| C68 | Turso: cutting a script at its semicolons; the database's own reading of a script | the lexer of the specification, run over each piece, gives the tokens between two semicolons |
| C69 | Turso: SQL of migrations in both layouts | the script reads as that of SQLite (C37) without STRICT; induction over operations; quoted semicolons counted text by text |
| C70 | Turso: transaction objects, connections over their life | induction over the operations of a transaction and over the uses of a connection; violations for all later uses |
| C71 | Turso: the two requests of an insert, in any order with those of other calls | induction over the requests in between |
| C72 | the macros on syntax trees: types of fields, tables, link tables, constants of the generated code; then `resolve_types` | induction over what a type means; the key of a type stands for its SQL type and no other |
| C73 | the macros, one item after another, on what is recorded already | recorded maps agree at every key |
| C74 | `dataobject_impl`: record, then check | case analysis; frame by induction over the fields |
| C75 | `add_type`, `add_modified_table`, `db` as sequences of accesses to files and locks; any number of processes, any schedule, kills | invariant over schedules: mutual exclusion, and the types file is a serial history; a second one for each table; a third for readers |
| C76 | `embed`, `update_embedded`, `CliState`, and the ends of all commands that change migrations | induction over the history: the program is a copy of what the last command left; nothing between commands changes the migrations |
| C77 | the files of migrations (C28, C65), the SQL that the SQLite backend generates for them (C37), executing it (C37) in a database that also has the table of records, and the commands (C30-C32, C61) | an invariant over the history (each migration's SQL was generated for schemas that are the same as the recorded ones), a frame lemma (no statement touches the table of records) and the theorems for C28, C31, C37, C61, C65 |
| C78 | the macros (C72), the files (C65), the commands and the SQL (C77) | the recorded schema is the one the specification of the macros describes (C72), the database has it (C77), and the SQLite table of each recorded table is the one for the model |
| C79 | the operations on objects as in lib.rs, with the generated conversions (C40 to C43) and the statement texts (C15); SQLite reads the text and executes it on the tables of C77 | each operation changes only the row of one key; the row written holds the stored forms of the fields; the query for a key selects that row and decoding inverts encoding; induction over the history |
| C80 | as C79 | the statement is read as intended, the new or changed row is accepted by every column, and no uniqueness or foreign key is violated by it |
| C81 | all of C72 (macros), C60 (making), C77 (migrating on SQLite), C79 and C80 (operations on objects); `RustType` says which Rust type a written type is | the tables of the crate (C78) fit the declared objects field by field, so that the database is ready for C79 and C80; the schema is kept by the operations |
| C82 | all of C81; `NewValue` (the value a new column has in old rows) of C37 | `RowsKept` of C77 relates the rows before and after by column name; both rows fit their models, so each field of the new object is read from the same stored value as before or from the default of its column |
| C83 | typed objects on SQLite (C79) with `LoadOut` and new `LoadFirstOut`; filters of C11 | Spec/ObjQuery.lean gives filters a meaning on objects (`FilterMeans`); Proofs/BoundVals.lean shows that comparing stored rows with bound parameters is comparing with the converted values; induction over the filter gives row truth = meaning on the object of the row; results are permutations of the matching rows and are paired with objects |
| C84 | typed `Many` (`TMany`) on SQLite in Model/SqliteMany.lean: `ensure_init`, `add`, `remove`, `save`, `delete`, `set`, `load`, `load_ordered`; `save` of an object with its `Many` fields; deletion by query | Spec/ObjMany.lean describes histories (`ProgramRun`) on objects and links; Proofs/ObjMany.lean shows that each statement on a link table changes the relation as described; induction over histories |
| C85 | no new code: `ProjectRun` ranges over `Cli.makeMigration`, `Migrations.migrate` and `unmigrate` (and the commands `migrate` and `rollback`) on the row model of SQLite, and the calls of C84 | Spec/CrateProgram.lean describes histories and what becomes of objects when the code changes; induction over histories with the invariant that the database has the tables of the last migration, the migrations that were made and not applied are those of later versions of the code, and the database `Keeps` the objects |
| C86 | Model/CliData: `clear_data` from where there is a connection, on the databases of Spec/Ddl with the statement texts of Model/Statements and the interpreter of Spec/SqliteData | Proofs/ClearData: deleting all rows of a table succeeds iff no other row refers to one; induction on the tables; Proofs/WorldCleared: objects and items of a database with emptied tables; a step of `ProjectRun` |
| C87 | serde trees, derived and hand-written implementations | induction on the field type; case analysis |
| C88 | the comparison implementations over any key type | case analysis, laws of the underlying order |
| C89 | mutually recursive copies of the types of the library | mutual structural recursion |
| C90 | Model/Describe.lean: the printing of operations and of the attributes of a changed column, with what was printed before an error; on top of `diff` and the directory of migrations | the notes that are printed are computed from the operations; the operations of a difference are classified by table and column, which gives that each note is right, complete and unique; the directory by the invariant of C61 |
| C91 | Model/PgObj: `save`, `delete`, `load`, `try_get` and `get` with typed fields on PostgreSQL, with the statement texts of Model/Statements and the conversions of Model/Convert; Spec/PgData: how PostgreSQL executes these statements (types of parameters, sequences, NOT NULL, unique columns and foreign keys); Spec/PgObj: which objects a database shows, histories | Proofs/PgStmt: the texts are read as the intended statements, keys are unique; Proofs/PgRows: what each statement does to the rows; Proofs/PgSaved: every successful save leaves exactly one row with the key, which holds the object; Proofs/PgShows: reading; induction on histories |
| C92 | Model/PgObj, Spec/PgData as for C91; Spec/PgAccept: which objects a database accepts, when nothing refers to an object | Proofs/PgAccept: after one row is put or removed all constraints hold again; the values of an object are bound to their columns; the three ways to save |
| C93 | Model/PgMigrate: the backend and the execution of scripts; Spec/PgCrate: the tables a crate should have in PostgreSQL, and which crates can be described | Proofs/PgFirst: the script of a first migration, including the table of records at its end, runs on an empty database; Proofs/PgCrate: what is recorded for a crate meets its conditions, and a database with the recorded schema has the tables of the crate |
| C94 | Spec/PgCrateObj: usable models, and when a database as statements see it has a catalog | Proofs/PgCrateObj: the tables of the crate fit the objects its models declare, their foreign keys refer to keys, changing rows keeps the catalog, and for every catalog with the tables of a crate there is a database |
| C95 | Spec/PgMigrate: what a described schema and a change are, and the histories; Model/PgMigrate: the backend and the execution of scripts, with the table of records | Proofs/PgMigrate: the script of a migration, with or without the table of records, takes a database with the old schema and the records to one with the new schema and keeps the records; which of the same schemas is written down does not matter; Props/PgMigrate: an invariant of all histories (each stored script is a change from the schema before it, and the database has the schema of the last recorded migration) |
| C96 | Spec/PgQuery: the objects a table holds, the meaning of a filter on an object, and which lists of objects a query may return; Model/PgObj, Model/PgFirst: load and load_first with declared parameter types | Proofs/PgQuery: the statement is read back as the query (C11), every parameter is compared with a column of its type, the condition is true of a row exactly when the filter describes its object; Proofs/PgKept: saves and deletes change the held objects as they should, by induction on the history |
| C97 | Spec/PgErase: which objects are gone and which are left; Model/PgErase: delete_where, whose parameters get the types of the columns beside them, and the number of rows | Proofs/PgErase: every parameter stands beside a column of its type, so binding succeeds; the rows that are left are those whose objects the filter does not describe; constraints hold of fewer rows if nothing refers to them |
| C98 | Model/Clean: the macros writing to migrations on disk, clear_current, the commands clean and delete table; Spec/Clean: histories of work on the source | Proofs/Clean: expanding on disk is expanding what is recorded (refinement of C72); an invariant of the history: every recorded table and type belongs to an item compiled since current was empty; then inserting the entries of the crate gives the map of the crate |
| C99 | Model/FilterMacro: syn::Expr as the macro distinguishes it, the handlers with the types of the generated code; Spec/FilterMacro: what the text says (TrueOf), the trees Rust builds | Proofs/FilterMacro: induction on the syntax tree; the result is a filter in the sense of C10 with the same meaning; then the theorems of C10; completeness by induction on filters |
| C100 | Model/FilterMacro with the object level of C83 and C84; Spec/MacroObjects: what the text says of an object (ObjTrueOf), when the macro's types are those of the objects (WorldFor) | Proofs/MacroObjects: induction on the syntax tree gives a filter of C83 with the meaning of the text that fits the models; then the theorems of C83 and C84 |
| C101 | Model/FilterMacro with the object level of C96 and C97; Spec/MacroPg: what the text says of an object (PgTrueOf), when the macro's type is the model (PgEnvFor) | Proofs/MacroPg: induction on the syntax tree gives a filter of C96 with the meaning of the text that fits the model; then the theorems of C96 and C97 |

Memory safety of the `unsafe` code in `adapter.rs` and `sqlite.rs`, performance,
and the behaviour of the compiled code itself cannot be expressed in this model.

## Which code is modelled

`Verif/Model` has one module per part of the code:

| module | code |
|--------|------|
| `Value` | `sqlval.rs`: values, references, literals |
| `Adb` | `migrations/adb.rs`: schemas, `diff`, `transform_with` (`resolve_types` in `Resolve`, type keys in `TypeKey`) |
| `Query`, `SqlGen` | `query/mod.rs`, `query/fieldexpr.rs`, `butane_codegen/src/filter.rs`, `db/helper.rs` (`sql_for_expr`, `sql_select`, limits, order) |
| `Statements` | `db/helper.rs`, `db/sqlite.rs`, `db/pg.rs`: insert, update, upsert, delete |
| `DataObject`, `ObjRow` | `lib.rs` (`DataObjectOps`), `codegen/dbobj.rs`, `autopk.rs`, the enum derive |
| `Many`, `FKey` | `many.rs`, `fkey.rs` |
| `Convert` | `sqlval.rs` (`ToSql`, `FromSql`), `db/sqlite.rs` and `db/pg.rs` value codecs, `uuid.rs` |
| `Migrations`, `MigStore` | `migrations/mod.rs`, `migration.rs`, `memmigrations.rs`, `fsmigrations.rs` |
| `Embed` | `butane_cli/src/lib.rs` (`embed`), JSON of `MemMigrations` |
| `Ddl` | `db/helper.rs`, `db/sqlite.rs`, `db/pg.rs`: migration statements |
| `Rows`, `ConnSpec` | `db/connmethods.rs`; `db/mod.rs` (`ConnectionSpec`, `add_parameter`) |
| `Tx`, `Adapter`, `WithSync` | transactions of both backends; `db/adapter.rs`; `with_sync`, `db/dummy.rs` |
| `Turso` | `db/turso.rs`: queries, deletes and the subqueries run before them |
| `TursoRows` | `db/turso.rs`: conversion of values, rows of results |
| `TursoDdl` | `db/turso.rs`: the SQL of migrations, executing a script |
| `TursoTx` | `db/turso.rs`: `transaction`, `TursoTransaction` and its `Drop` |
| `TursoInsert` | `db/turso.rs`: `insert_returning_pk` as two requests on a shared connection |
| `Codegen` | `codegen/mod.rs`, `codegen/migration.rs`, `codegen/dbobj.rs` (constants and checks), the `FieldType` derive in `butane_codegen/src/lib.rs`; not the generated function bodies, nor parsing of Rust |
| `Cli` | `butane_cli/src/lib.rs`: commands on migrations |
| `Record` | `fsmigrations.rs`: `write_contents`, `add_modified_table`, `add_type`, `db` (without resolving), `MigrationLock`, for the directory `current`, one access to the file system at a time. Texts are written in one piece, as characters; `ensure_dir` and taking a lock are one step each |
| `EmbedCli` | `butane_cli/src/lib.rs`: `embed`, `update_embedded`, `CliState::load`/`save`, and their calls by `make_migration`, `detach_latest_migration`, `collapse_migrations`, `add_backend`, `remove_backend`, `regenerate_migrations` |
| `SqliteMigrate` | `butane_core/src/db/sqlite.rs`: `SqliteBackend::name`, `create_migration_sql` and `SqliteConnection::execute` as migrations use them; `migrations/mod.rs`: `migrations_table` as a table of the database |
| `SqliteObj` | `DataObjectOps` on the SQLite backend with typed fields: `save`, `delete`, `try_get`, `get`, the binding of parameters, `insert_returning_pk` |
| `Verif/Spec/ObjQuery.lean` | objects and links of a program by table (`World`), the meaning of filters on objects, results of queries, histories |
| `Verif/Proofs/BoundVals.lean` | SQLite comparing rows with bound values is the abstract database comparing with converted values |
| `Verif/Proofs/StoresObjs.lean` | tables that hold exactly the objects, through saves and deletes |
| `Verif/Proofs/ObjQuery.lean` | truth of a filter on a row is its meaning on the object |
| `Verif/Proofs/ObjLoad.lean` | what `load` and `load_first` return |
| `Verif/Props/ObjQuery.lean` | C83 |
| `Verif/Model/SqliteMany.lean` | `Many` and deletion by query on the row model of SQLite |
| `Verif/Spec/ObjMany.lean` | links of `Many` fields and histories of a program that changes them |
| `Verif/Proofs/ObjMany.lean` | statements on link tables as changes of the relation between owners and items |
| `Verif/Props/ObjMany.lean` | C84 |
| `Verif/Spec/CrateProgram.lean` | histories of a project: versions of its code, migrations, programs |
| `Verif/Proofs/WorldKept.lean` | objects and links kept by a change of tables |
| `Verif/Props/CrateProgram.lean` | C85 |
| `Verif/Props/CrateProgramEx.lean` | C85: example of a project with a `Many` field |
| `Model/CliData` | `clear_data` of the tool on SQLite. |
| `Spec/ClearData` | Rows that refer to others; rows of tables are deleted; a project without objects. |
| `Proofs/ClearData` | Emptying one table and several; when it succeeds. |
| `Proofs/WorldCleared` | What a database holds when tables are emptied. |
| `Props/ClearData, Props/ClearDataEx` | C86. |
| `Verif/Spec/SqliteUndo.lean` | what undoing migrations does to a database |
| `Verif/Props/SqliteUndo.lean` | C77: undoing migrations |
| `Verif/Props/ProjectUndo.lean` | C85: undoing migrations |
| `Verif/Model/Serde.lean` | serialization of fields, foreign keys and Many |
| `Verif/Spec/Serde.lean` | when values should survive serialization |
| `Verif/Props/Serde.lean` | C87 |
| `Verif/Model/KeyCmp.lean` | comparing automatic keys and foreign keys |
| `Verif/Spec/KeyCmp.lean` | the laws of comparisons |
| `Verif/Props/KeyCmp.lean` | C88 |
| `Verif/Model/PgTypeSer.lean` | PostgreSQL types as written to migrations |
| `Verif/Spec/PgTypeSer.lean` | when two PostgreSQL types are the same |
| `Verif/Props/PgTypeSer.lean` | C89 |
| `Verif/Props/Describe.lean` | describing a migration (C90) |
| `Spec/PgData` | How PostgreSQL executes statements that read and change rows (environment). |
| `Model/PgObj` | Operations on objects with typed fields on PostgreSQL. |
| `Spec/PgObj` | Models that fit a PostgreSQL table, the objects a database shows, histories. |
| `Proofs/PgStmt, Proofs/PgRows, Proofs/PgSaved, Proofs/PgShows` | Statements, rows, saves and reads on PostgreSQL. |
| `Props/PgObj` | C91. |
| `Spec/PgAccept, Proofs/PgAccept` | Objects a PostgreSQL database accepts are saved. |
| `Props/PgAccept` | C92. |
| `Model/PgMigrate` | Migrations of a PostgreSQL database. |
| `Spec/PgCrate, Proofs/PgFirst, Proofs/PgCrate` | The tables of a crate in PostgreSQL. |
| `Props/PgCrate` | C93. |
| `Spec/PgCrateObj, Proofs/PgCrateObj` | Objects of a crate in PostgreSQL. |
| `Props/PgCrateObj` | C94. |
| `Spec/PgMigrate, Proofs/PgMigrate` | Histories of migrations of a PostgreSQL database. |
| `Props/PgMigrate, Props/PgUndo` | C95. |
| `Spec/PgQuery, Model/PgFirst, Proofs/PgQuery, Proofs/PgKept` | Queries on a PostgreSQL database and the objects it holds. |
| `Props/PgQuery` | C96. |
| `Model/PgErase, Spec/PgErase, Proofs/PgErase` | Deleting by a query on PostgreSQL. |
| `Props/PgErase` | C97. |
| `Model/Clean, Spec/Clean, Proofs/Clean` | The directory of the current schema: macros writing to it, clean and delete table. |
| `Props/Clean` | C98. |
| `Model/FilterMacro, Spec/FilterMacro, Proofs/FilterMacro` | The filter! macro on the syntax tree of its argument. |
| `Props/FilterMacro` | C99. |
| `Spec/MacroObjects, Proofs/MacroObjects` | What the text of filter! says of objects. |
| `Props/MacroObjects` | C100, and C99 on Turso. |
| `Spec/MacroPg, Proofs/MacroPg` | What the text of filter! says of objects in PostgreSQL. |
| `Props/MacroPg` | C101. |
| `Props/MacroProject` | C100 in the history of a project. |
| `Props/MacroCrate` | C100 for the models of any crate: what `filter!` knows of a crate is right about its objects, in every history of a project. |
| `Spec/MacroCrate` | What `filter!` knows of the models of a crate (`CrateEnv`). |

The citation at each definition gives the lines.

Not modelled:

* the procedural macros as programs on token streams (their output is modelled as functions of
  the list of fields), error messages and logging;
* opening connections, the pools (`r2d2`, `deadpool`), TLS;
* file locks; failures of single file operations and crashes between them, except where a theorem
  states them (`cli_regenerate_crash_violated`, the failing commands of `Reach`);
* `update_embedded` inside the commands, `init`, `clean`, finding the workspace, printing;
* memory safety of `unsafe` code; dropping the adapter while a call runs.

## What is assumed of the environment

Each of these is a definition in `Verif/Spec`, so a theorem names what it uses.

* SQL text: `Spec/Sql`, `Spec/Stmt`, `Spec/Ddl` have lexers and parsers for the subset that butane
  emits.  Unquoted identifiers are compared as written: folding of their case is not modelled.
* Execution of statements (`Spec/Stmt`): no foreign keys are checked there; `Spec/Ddl` and
  `Spec/LiveRefs` check them for migration statements.
* The catalog of PostgreSQL (`Spec/PgDdl`): how tables, columns and constraints change with each
  statement, how constraints are named, that unquoted text is read in lower case, which statements are
  refused. Rows are not part of it: whether rows allow a statement, whether a literal fits a type
  and whether a type can be cast are parameters.
* Turso (`Spec/Turso`): reads statements as SQLite does, accepts `IN ()`, and may refuse a subquery in a
  `WHERE` clause (`subs`; the code says that it does, turso.rs:177,346). `DISTINCT` leaves out values
  that compare alike. Affinity of the values of an `IN` list and the limit on bound values are not modelled.
* Transactions on Turso (`Model/TursoTx`): a `COMMIT` that fails leaves the transaction open, `BEGIN` in an open
  transaction fails, an open transaction is lost when the connection is closed; `last_insert_rowid()` is the key of the
  row the connection inserted last.
* Schema statements on Turso (`Spec/TursoDdl`): read and executed as on SQLite, one at a time; tables are
  not `STRICT`; whether a table can be renamed in the transaction that created it is a parameter (the
  code says that it cannot, turso.rs:1156-1160).
* SQLite column storage (`Spec/Convert`): `STRICT`-like affinity of the types butane declares.
* PostgreSQL texts without NUL, no normalisation of `jsonb`, no limits of ranges of dates.
* `chrono`, `serde_json`, `uuid` are codecs with the law that reading what was written gives the
  value back (for `serde_json` and floats this needs its feature `float_roundtrip` or numbers that
  survive without it).
* JSON texts of whole values are read back, and an empty file is not a JSON text (`Record.Codec`). `flock` excludes as documented and is released when the process ends.
* `clistate.json` is read back as it was written.
* Spec/SqliteData.lean: how SQLite executes INSERT (with ON CONFLICT), UPDATE, DELETE and SELECT on STRICT tables with typed values, unique columns and foreign keys; `last_insert_rowid()` is the last row of the table
* `PgData.execData` and `PgData.QueryRows` (Spec/PgData.lean) are what PostgreSQL does with butane's statements: parameters without a declared type get that of the column they are compared with or put into, a sequence gives any number, a statement that would break a constraint fails and changes nothing. `PgData.Laws`: values of one built-in type other than float are equal only if identical.
* `PATH_RESOLVER` of the code generator, from another crate, is a parameter (`Spec/Codegen.ResolverOk`): it knows
  the documented spellings of `Option`, `ForeignKey`, `Many` and `AutoPk`, and takes no path with another last
  segment for one of them. The compiler expands the items of a crate one at a time, each once, in any order.
* The `url` crate, the white space class of `regex` and percent decoding are parameters.
* `rusqlite` and `tokio-postgres` sessions (`Spec/Tx`): a transaction is a private copy of the
  store that replaces the store on commit; PostgreSQL refuses statements after an error; SQLite may
  roll back by itself.

## Properties the code violates

Proved of the model of the unchanged code, with the words of the theorems:

* C02 `diff_self_violated`: C02 fails in full: with a not-a-number default, a schema differs from itself, so each new migration repeats a change of that column.
* C05 `drop_referenced_violated`: **C05 fails** when a table is removed together with the column that referred to it: the table is dropped first.
* C05 `sqlite_drop_referenced_violated`: **C05 fails on SQLite** even when both tables are removed, as constraints are not removed first: the table whose name comes first is dropped first, and that fails if rows refer to it.
* C08 `typekey_rejects_others_violated`: C08 fails in full: a short text is not reported as an error but panics.
* C09 `many_tables_distinct_violated`: C09 fails in full: two different models with different fields share one link table, and a link table can be the table of a model.
* C10 `filter_owner_field_violated`: C10 violated: searching through a `Many` for a field called `owner` is an error (ambiguous column), although the filter holds of the row.
* C10 `filter_reserved_field_violated`: C10 violated: a field named like a keyword makes the generated text unreadable, since comparisons write the column without quoting it (helper.rs:56-70).
* C11 `condition_allOf_empty_violated`: C11 violated: `AllOf([])` is rendered as nothing, which is a syntax error.
* C11 `condition_not_and_violated`: C11 violated: `Not(And(b, c))` with `b` and `c` false is true, its text is false.
* C11 `condition_or_under_and_violated`: C11 violated: `And(Or(a, b), c)` with `a` true and `c` false is false, but its text `a OR b AND c` is true.
* C11 `condition_two_joins_violated`: C11 violated: two joins run together (`..idINNER JOIN..`).
* C12 `placeholder_operand_violated`: C12 violated: `Expr::Placeholder` takes a placeholder and binds no value, so the following values move to the wrong placeholder.
* C13 `pg_placeholder_overflow_violated`: C13 violated: the 127th call panics in a build with overflow checks; without them the 128th placeholder is `$-128`.
* C14 `is_in_empty_pg_violated`: C14 violated: an empty `is_in` is a syntax error on PostgreSQL.
* C15 `pg_returning_reserved_violated`: C15 violated: a model whose automatic key is called `order` cannot be inserted into PostgreSQL, the statement is not readable.
* C16 `load_offset_only_violated`: C16 violated: on SQLite an offset without limit does not return all remaining rows.
* C17 `load_first_limit_zero_violated`: C17 violated: with a limit of 0 `load` returns nothing, but `load_first` returns an object, on both backends.
* C18 `query_delete_limit_violated`: C18 violated: a query with a limit of 1 deletes all matching rows.
* C20 `auto_key_reuse_violated`: C20, violated over histories with deletes: SQLite hands out the key of a deleted row again, because butane creates automatic keys without `AUTOINCREMENT` (db/sqlite.rs:706-736). Blog 2 is deleted, a new blog is saved and gets key 2, and saving the stale object again silently overwrites the new blog.
* C21 `save_missing_row_violated`: C21, violated: the documentation promises an upsert, but saving an object whose automatic key is set and whose row is missing reports success and stores nothing, on every backend and for every such object.
* C22 `many_save_other_owner_violated`: C22 is false of the code: when blog 1 drops "b", so does blog 2.
* C24 `many_load_removed_violated`: C24 is false of the code: a removed object is still shown until `save`.
* C24 `many_load_twice_violated`: C24 is false of the code: an addition of something already linked is shown twice.
* C25 `many_failed_save_violated`: C25 is false of the code: "c" is added to blog 1, its insert fails, and saving again succeeds without ever linking "c".
* C27 `fkey_bad_column_violated`: A foreign key read from a column with a value of another type panics when asked for its key, although reading it succeeded.
* C27 `fkey_unsaved_violated`: A foreign key made from an object that has not been saved panics when it is stored: the hypothesis on the key is needed.
* C29 `fkey_concurrent_to_sql_violated`: C29 is false of the code: a foreign key made from an object, converted by two threads at the same time.
* C30 `all_migrations_cycle_violated`: C30 is false of collections with a cycle: `all_migrations` does not return, however long one waits.
* C31 `migrate_gap_violated`: The applied migrations must be a first part of the chain: an older migration that is not recorded is skipped if a newer one is.
* C33 `unmigrate_unreadable_violated`: C33 is false if a migration cannot be read: `unmigrate` stops there and reports success, although migrations are still applied.
* C34 `mem_reused_name_violated`: C34 fails in full: making a migration with a name that is in the chain is accepted, and then each migration has a predecessor: the chain is a circle, and `all_migrations` does not return.
* C35 `fs_detached_name_violated`: C35 fails in full: after the latest migration is detached, its files remain. A migration made later with that name is read back with tables that it does not have.
* C35 `fs_failed_name_violated`: The same after a creation that failed and was tried again with the same name.
* C36 `copy_one_direction_violated`: C36 fails in full: the SQL of a backend that has it in one direction only is not copied.
* C37 `sqlite_add_date_violated`: **C37 fails for new required dates**: the default is quoted twice.
* C37 `sqlite_add_json_violated`: **C37 fails for new required JSON columns** in tables with rows: the default is NULL.
* C37 `sqlite_add_quote_violated`: **C37 fails for new columns whose default text has a quote**.
* C37 `sqlite_add_reference_violated`: **C37 fails for new references**: the column is added without a foreign key, so the database does not have the new schema although nothing fails.
* C37 `sqlite_add_unique_violated`: **C37 fails for new unique columns**: SQLite cannot add them, even to an empty table.
* C37 `sqlite_auto_violated`: **C37 fails for automatic columns that are not the key**: SQLite has no such columns.
* C37 `sqlite_change_referenced_violated`: **C37 fails for changed columns of tables other rows refer to**: the table is replaced by a copy, and the original cannot be dropped.
* C37 `sqlite_move_key_violated`: **C37 fails when the key is moved** to a column whose name comes before: the intermediate table would have two keys.
* C37 `sqlite_remove_unique_violated`: **C37 fails for removed unique columns**: SQLite cannot drop them.
* C38 `pg_add_auto_violated`: **C38 fails for new automatic columns**: a `SERIAL` column is given a second default.
* C38 `pg_add_bytes_violated`: **C38 fails for new required columns of bytes**: their default is written as a bit string.
* C38 `pg_add_date_violated`: **C38 fails for new required dates**: their default is quoted twice.
* C38 `pg_add_quote_violated`: **C38 fails for new columns whose default text has a quote**.
* C38 `pg_auto_violated`: **C38 fails for numbers that become automatic**: no SQL is generated, and the column is not numbered.
* C38 `pg_capitals_violated`: **C38 fails for tables whose names differ only in capitals**.
* C38 `pg_constraint_name_violated`: **C38 fails when two constraints would have the same name**: butane does not know the name PostgreSQL chose for the second.
* C38 `pg_drop_key_violated`: **C38 fails for a key that is dropped**: no SQL is generated, and the column is still the key.
* C38 `pg_json_default_violated`: **C38 fails for columns with a JSON default**: it is not quoted.
* C38 `pg_reference_moved_violated`: **C38 fails when a reference moves away from a column that is removed**: tables are changed in the order of their names, and the column is removed first.
* C38 `pg_remove_referenced_violated`: **C38 fails when a table is removed together with the columns that refer to it**: the table is removed first.
* C38 `pg_replace_key_violated`: **C38 fails when the key column is replaced** by another: the new key is added while the old one is still there.
* C38 `pg_reserved_violated`: **C38 fails for tables whose name is a reserved word with capitals**: the name is quoted, but not in the names of constraints.
* C38 `pg_serial_type_violated`: **C38 fails for numbers that become automatic with another type**: `SERIAL` is no type a column can be changed to.
* C38 `pg_type_violated`: **C38 fails for changes of type that are no automatic casts**: there is no `USING`.
* C39 `date_literal_violated`: **C39 fails for dates**: no date is written as a literal.
* C39 `json_literal_violated`: **C39 fails for JSON objects and arrays**: they are no literals. The JSON `null` is written as the SQL NULL.
* C39 `text_literal_violated`: **C39 fails for texts with quotes**, for every such text.
* C39 `timestamp_literal_violated`: **C39 fails for timestamps**: the text stored for the literal is the one with a `T`, which the backend does not read.
* C40 `nested_option_violated`: **C40 fails for nested options**: `Some(None)` is stored as NULL and read as `None`.
* C41 `int_out_of_range_violated`: **C41 fails**: no integer field type reports a number that does not fit. Whenever a stored integer of the field's column type is out of the field's range, reading succeeds with a different number.
* C41 `sqlite_int_violated`: **C41 also fails in the SQLite backend**: an integer of more than 32 bits in a column declared `Int` is read, without an error, as another number. One that fits is read as it is.
* C42 `sqlite_nan_violated`: **C42 fails for NaN**: it is read back as NULL.
* C45 `pg_commit_after_error_violated`: **C45 fails on PostgreSQL when a statement of the transaction has failed**: whatever the other statements are, the commit reports success and nothing becomes visible.
* C45 `sqlite_auto_rollback_violated`: **C45 fails when SQLite rolls back a transaction by itself**, as it does when the disk is full, for example: the following statements of the transaction are committed one by one, although the transaction is rolled back.
* C46 `adapter_give_up_violated`: **C46 fails when a caller gives up before its call is executed**: the worker executes it with arguments that are gone, and whatever state the connection is in afterwards, another caller gets a result that no serial execution of the calls gives.
* C46 `adapter_lost_transaction_violated`: **A caller that gives up beginning a transaction leaves it open**, even after the worker has executed the call: nobody has the transaction object, so nothing ends it. Statements of other callers then succeed but are never committed, and no transaction can be begun.
* C47 `with_sync_dropped_violated`: **C47 fails when the caller drops the future of `with_sync`**: the callback goes on and returns without error, but the connection is poisoned.
* C48 `current_violated`: **C48 fails for `current`**: after `next` has returned a row, `current` does not return that row, for every result without two equal consecutive rows; before the first `next` it returns the first row.
* C49 `add_parameter_ampersand_violated`: **C49 fails for every value with an ampersand**: the value ends there, and what follows is read as another parameter.
* C49 `add_parameter_fragment_violated`: **C49 fails for every URI with a fragment**: the new parameter becomes part of the fragment and is lost.
* C49 `add_parameter_space_violated`: **C49 fails for a value with a space in a key/value string**: the result cannot be read.
* C50 `cli_migrate_target_violated`: C50 is false of targets that are not migrations still to be applied: an unknown name, or a migration that is applied already, is as good as no target. Everything is applied.
* C50 `cli_unmigrate_later_violated`: C50 is false of targets after the last applied migration, except the latest of all: the command panics. (Nothing is done to the database.)
* C52 `cli_collapse_failure_violated`: C52: if the database fails when the records are deleted, all migrations are gone already, although the records say that they are applied.
* C52 `cli_collapse_unapplied_violated`: C52 is false when there are migrations that are not applied: these, and with them the changes of the schema, are gone after a collapse that ends well.
* C53 `filter_twice_violated`: C53 violated: the second condition replaces the first one.
* C54 `many_load_ordered_cached_violated`: C54 is false of the code: once values are there, they are returned as they are. The tags are set to "b", "a", and the ascending order is asked for.
* C54 `many_load_ordered_pending_violated`: C54 is false of the code: pending additions come after the ordered part. Blog 1 has "a" and "b", "c" is added, and the descending order is asked for.
* C55 `many_get_after_save_violated`: C55 is false of the code: remove "a", load, save; `get` still returns "a".
* C56 `fkey_eq_unsaved_violated`: C56 is false of the code: compared with an object that has not been saved, an unloaded foreign key panics and a loaded one is different.
* C57 `embedded_hash_violated`: C57 fails: any string that begins with a number sign, such as a default color, makes the compiler read something else.
* C58 `pg_timestamp_violated`: **C58 fails for fractions of a microsecond**: every such time stamp is read back as another.
* C60 `backend_password_violated`: **C60 fails when a string of keys and values contains `://`**, in a password for example: it is taken for the name of an SQLite file.
* C60 `backend_scheme_case_violated`: **C60 fails when the scheme is not written in lower case**: SQLite is chosen, but the string is not turned into a `file` URI.
* C64 `cli_regenerate_crash_violated`: **C64 is violated by a crash**: the tables of a migration are deleted before they are written again. In the state in between the schema of the migration is read, without an error, as the empty schema.
* C66 `turso_delete_violated`: C66 violated, in general: `delete` sends the filter with its subqueries, so on a database without subqueries it fails for every filter that has one, whatever is stored.
* C66 `turso_nested_violated`: C66 violated, in general: on a database without subqueries, loading a query whose filter has a subquery inside a subquery fails, whatever is stored.
* C66 `turso_snapshot_violated`: C66 violated: the statements of one call see different states of the database. While a query for the posts of the blog "cats" runs, somebody renames that blog and moves post 7 from another blog to it. Post 7 belongs to a blog of that name neither before nor after, but the query returns it.
* C67 `turso_int_violated`: **C67 fails for integers**: an integer of more than 32 bits in a column declared `Int` is read, without an error, as another number. One that fits is read as it is.
* C67 `turso_nan_violated`: **C67 fails for NaN**: it is read back as NULL.
* C68 `turso_execute_violated`: **C68 fails for a semicolon between quotes**: the script is cut there, and fails whatever the database is.
* C69 `turso_change_violated`: **C69 fails for changed columns** where a table cannot be renamed in the transaction that created it, as the code says of Turso: every such migration fails.
* C69 `turso_semicolon_violated`: **C69 fails for new columns whose default text has a semicolon**: every such migration fails.
* C70 `turso_drop_panics_violated`: Dropping on a runtime with one thread panics as well.
* C70 `turso_drop_violated`: **C70 fails when an unfinished transaction object is dropped outside of a runtime**, as with the blocking API, or on a runtime with one thread: the transaction stays open with the same consequences.
* C70 `turso_failed_commit_violated`: **C70 fails after a commit that fails**: whatever the transaction did and whatever is done with the connection afterwards, no transaction can be begun any more, and statements report success but none of them is there when the connection is closed.
* C71 `turso_insert_key_int_violated`: **C71 fails for `AutoPk<i32>` and keys that do not fit**: the call succeeds with another number.
* C71 `turso_insert_key_violated`: **C71 fails when another call inserts in between**, into whatever table: the call returns the key of the other row.
* C71 `turso_insert_two_objects_violated`: Such keys differ, if the engine does not give out a key again and the tables are the same; then two objects have the same key, and saving one of them again overwrites the row of the other.
* C72 `builtin_name_violated`: C72 violated: a type of the user's with the name of a built-in one is recorded with the type of the built-in one, whatever its own `SQLTYPE` is.
* C72 `cross_name_violated`: C72 violated: if one model's table has the name of another model's struct, a foreign key to the other is recorded with the key type of the one: the column of `ForeignKey<B>` refers to the table of `B`, whose key is a `BigInt`, but is a `Text`.
* C72 `qualified_type_violated`: C72 violated: a declared type that is written with its module is not found.
* C72 `raw_type_violated`: C72 violated: a type with a raw identifier that derives `FieldType` is recorded with the prefix `r#`, but looked up without it, so that a model with a field of this type has no migration.
* C72 `same_name_violated`: C72 violated: of two models whose structs have the same name, in different modules, only the one compiled last is recorded.
* C73 `removed_model_violated`: C73 violated: a model that is removed from the source stays recorded.
* C73 `removed_table_name_violated`: C73 violated: after the attribute with the table name is removed, foreign keys still refer to the old table.
* C74 `rejected_model_violated`: C74 violated: a model with a key of type `AutoPk<String>` is rejected, but its table is recorded; so is one with an `AutoPk` field that is not the key.
* C75 `killed_violated`: C75 is false if a compiler is killed after it has emptied `types.json`: the next compiler that records a type fails, and reading the schema fails.
* C75 `mixed_table_violated`: C75 is false of tables that two compilers record differently (different features, say): the shorter text is written over the longer one, and the file cannot be read.
* C75 `torn_table_violated`: C75 is false of tables: they are written without the lock. Reading the schema while a table is written can find an empty file and fail.
* C75 `types_lost_violated`: C75 is false on the first build: the directory does not exist yet, so there is no lock, and the error is ignored. Two compilers that record a type each can end, both without an error, with only one of the types recorded.
* C76 `embedded_stale_violated`: C76 fails when a command fails: after a collapse that fails while the database forgets the migrations, they are gone from the disk, but the program still has them all.
* C77 `sqlite_migrate_stuck_violated`: **C77 fails if success is asked for**: the tool makes a migration (for a new unique column) that no database can take, so that a new database cannot be migrated, on any connection.
* C79 `save_missing_row_sqlite_violated`: C79, the full statement is false: an object with an automatic key is saved after its row was deleted (by the object itself, or by somebody else): `save` succeeds and nothing is stored. Looking for the object gives nothing.
* C82 `crate_objects_kept_violated`: C82 for all fields is false: an enum field without a default is added to a model that has an object. Everything succeeds, but the object cannot be read afterwards, because the new column holds the empty text, which is no variant.
* C84 `many_save_objects_other_owner_violated`: C84, why `many_save` needs its hypothesis: removing an item from what one owner has removes it from what the other owners have, too (`DELETE FROM … WHERE has IN (…)`, many.rs:262-266).
* C86 `clear_data_linked_violated`: C86 fails for a post with a label: it stays, however often one tries.
* C86 `clear_data_stuck_violated`: C86 fails: a row that refers to one of a table whose name comes earlier makes it fail, and is still there afterwards. So it fails every time.
* C87 `field_json_violated`: C87 is false of an option inside an option: `Some(None)` is written as `None` is.
* C87 `fkey_json_violated`: C87 is false of a foreign key that holds an object that has not been saved: it is written, but reading it panics.
* C87 `many_json_violated`: C87 is false of unsaved changes: saving what was read back adds nothing, although the original had "c" to add.
* C88 `fkey_eq_refl_violated`: C88 is false of a foreign key that holds an object that has not been saved: it does not equal itself, although `ForeignKey` is `Eq`.
* C89 `pgtype_builtin_violated`: C89 is false of the constants of the library: the type read back is not the one written.
* C89 `pgtype_multirange_violated`: C89 is false of multiranges: writing one panics.
* C90 `describe_hides_violated`: C90 fails in another way: what the code says of a new column is not all described, so that two different sets of changes have the same description.
* C90 `describe_nan_violated`: C90 fails in full: a default that is not-a-number is described as a change although the schemas are the same.
* C91 `save_missing_row_pg_violated`: C91, the full statement is false: an object with an automatic key is saved after its row was deleted (by the object itself, or by somebody else): `save` succeeds and nothing is stored. Looking for the object gives nothing.
* C95 `pg_undo_stuck_violated`: **C95 fails if undoing is asked to succeed**: the tool makes a migration (for a new table and a column that refers to it) that can be applied and that no connection can undo, whatever the rows.
* C96 `pg_json_filter_violated`: C96, the full statement is false: a filter that compares a JSON field with a JSON value compiles, and `load` always fails. The parameter is declared as `json` while the column is `jsonb`, and PostgreSQL does not compare the two.
* C98 `stale_table_violated`: C98 violated without `butane clean`: after `User` is removed from the source and the crate compiled, the schema of the code still has its table.
* C99 `macro_block_violated`: C99 violated: the same with a condition in braces, `filter!(Post, { x } && c == 1)`.
* C99 `macro_group_violated`: C99 violated: with `$x` standing for `a == 1 || b == 1` in a `macro_rules!` macro, `filter!(Post, $x && c == 1)` compiles. The example row has `a = 1` and `c = 0`, so it is not described, but the database selects it.

## Axioms per theorem

As printed by `#print axioms` for the theorems of `MANIFEST.json`:

* **none** (1): `turso_drop_panics_violated`
* **propext** (46): `many_tables_distinct_violated`, `many_init`, `fkey_made`, `fkey_failed_load`, `fkey_unsaved_violated`, `fkey_bad_column_violated`, `init_agree`, `init_stable`, `init_progress`, `fkey_concurrent_to_sql_violated`, `all_migrations_cycle_violated`, `migrate_gap_violated`, `unmigrate_unreadable_violated`, `nested_option_violated`, `read_needs_type`, `int_wrong_kind`, `sqlite_custom_rejected`, `sqlite_wrong_class`, `sqlite_bool_nonzero`, `wrong_number_of_columns`, `newtype_fields`, `sqlite_transactions_partial`, `sqlite_consumed`, `sqlite_auto_rollback_violated`, `pg_consumed`, `adapter_give_up_violated`, `with_sync_partial`, `poisoned_forever`, `with_sync_dropped_violated`, `current_is_next`, `current_violated`, `cli_migrate_all`, `filter_twice_violated`, `pg_timestamp_violated`, `pg_wrong_type`, `fetch_error`, `turso_get_typed`, `turso_insert_key_int_violated`, `field_json_violated`, `fkey_json_partial`, `fkey_json_violated`, `autopk_eq_key`, `pgtype_stable`, `pgtype_builtin_violated`, `pgtype_multirange_violated`, `macro_rejects`
* **Quot.sound, propext** (54): `pg_placeholder_numbering_partial`, `pg_placeholder_checked_partial`, `fkey_history`, `fkey_loaded_once`, `fkey_stored_once`, `fkey_concurrent`, `fkey_concurrent_to_sql_partial`, `all_migrations_exact`, `chain_distinct`, `migrations_since_exact`, `all_migrations_returns_partial`, `migrate_any_failure`, `migrate_succeeds`, `unmigrate_any_failure`, `migrate_unmigrate_migrate`, `sqlite_nan_violated`, `enum_fields`, `enum_with_data`, `sqlite_transaction_partial`, `adapter_lost_transaction_violated`, `usable_while_callbacks_return`, `next_each_once`, `cli_migrate_partial`, `cli_migrate_succeeds`, `cli_migrate_target_violated`, `cli_unmigrate_impossible_partial`, `cli_unmigrate_later_violated`, `cli_unmigrate_latest`, `cli_list`, `builder_calls_partial`, `fkey_eq_partial`, `fkey_eq_unsaved_violated`, `embedded_text_partial`, `embedded_hash_violated`, `adapter_rows`, `adapter_objects`, `buffered_row`, `turso_nan_violated`, `turso_transaction_partial`, `turso_connection_partial`, `turso_failed_commit_violated`, `turso_drop_violated`, `turso_insert_key_partial`, `turso_returns_last`, `turso_insert_key_violated`, `types_lost_violated`, `killed_violated`, `mixed_table_violated`, `autopk_eq_laws`, `autopk_order`, `fkey_cmp_partial`, `fkey_eq_refl_violated`, `pgtype_survives_partial`, `describe_hides`
* **Classical.choice, Quot.sound, propext** (402): `diff_reaches_target`, `diff_reaches_target_from_same`, `diff_keeps_valid`, `diff_nil_iff_partial`, `same_of_diff_nil`, `diff_self_partial`, `diff_self_violated`, `diff_down_undoes_up`, `diff_op_applicable`, `diff_constraints_last`, `diff_changes_are_real_partial`, `diff_tables_complete`, `drop_unreferenced_partial`, `drop_referenced_violated`, `sqlite_drop_referenced_violated`, `resolve_terminates`, `resolve_ok`, `resolve_err`, `resolve_no_panic`, `resolve_ok_iff`, `resolve_sound`, `resolve_idempotent`, `resolve_idempotent_alias_needed`, `typekey_roundtrip`, `typekey_text_injective`, `typekey_accepts_only_keys`, `typekey_order`, `typekey_rejects_others_partial`, `typekey_rejects_others_violated`, `many_tables_distinct_partial`, `many_tables_distinct_same_model`, `many_table_not_model_partial`, `filter_selects_sqlite_partial`, `filter_selects_pg_partial`, `filter_reserved_field_violated`, `filter_owner_field_violated`, `macro_objects_partial`, `macro_load_partial`, `macro_load_returns_partial`, `macro_first_partial`, `macro_delete_partial`, `macro_delete_then_load_partial`, `macro_history_partial`, `project_macro_partial`, `project_macro_delete_partial`, `crate_filter_world`, `crate_filter_partial`, `project_has_crate`, `pg_macro_objects_partial`, `pg_macro_load_partial`, `pg_macro_load_returns_partial`, `pg_macro_first_partial`, `pg_macro_delete_partial`, `pg_macro_delete_succeeds_partial`, `pg_macro_delete_then_load_partial`, `pg_program_partial`, `pg_macro_history_partial`, `condition_means_sqlite_partial`, `condition_means_pg_partial`, `condition_or_under_and_violated`, `condition_not_and_violated`, `condition_allOf_empty_violated`, `condition_two_joins_violated`, `text_independent_of_values`, `values_in_reading_order`, `placeholders_aligned_sqlite_partial`, `placeholders_aligned_pg_partial`, `placeholder_operand_violated`, `pg_placeholder_overflow_violated`, `null_tests`, `is_in_sqlite`, `is_in_pg_partial`, `is_in_empty_pg_violated`, `insert_stores_partial`, `insert_default_stores`, `pg_insert_returning_partial`, `pg_returning_reserved_violated`, `update_stores_partial`, `upsert_stores`, `upsert_single_stores`, `load_result_partial`, `load_negative_limit`, `load_offset_only_violated`, `load_first_partial`, `load_first_limit_zero_violated`, `query_delete_partial`, `query_delete_limit_violated`, `objects_are_map_partial`, `objects_progress_partial`, `auto_objects_are_map_partial`, `auto_objects_progress_partial`, `auto_insert_partial`, `auto_update_partial`, `delete_unsaved`, `auto_key_reuse_violated`, `save_with_key_partial`, `save_missing_row_violated`, `many_save_exact`, `many_save_partial`, `many_history_partial`, `many_save_other_owner_violated`, `many_set`, `many_delete`, `many_load_exact`, `many_load_partial`, `many_load_twice_violated`, `many_load_removed_violated`, `many_failed_save_partial`, `many_retry_partial`, `many_failed_save_violated`, `many_get_fresh`, `many_call_cache`, `many_uninit`, `many_add_invalid`, `migrate_applies`, `migrate_twice`, `migrate_resume`, `unmigrate_missing`, `mem_history`, `fs_history`, `mem_create`, `fs_create`, `mem_create_nothing_partial`, `fs_create_nothing_partial`, `mem_create_succeeds`, `fs_create_succeeds`, `mem_reused_name_violated`, `fs_missing_table`, `fs_detached_name_violated`, `fs_failed_name_violated`, `copy_migration_partial`, `embed_preserves`, `copy_one_direction_violated`, `sqlite_migration_partial`, `sqlite_migration_runs_partial`, `sqlite_add_unique_violated`, `sqlite_remove_unique_violated`, `sqlite_add_date_violated`, `sqlite_add_json_violated`, `sqlite_add_quote_violated`, `sqlite_move_key_violated`, `sqlite_change_referenced_violated`, `sqlite_add_reference_violated`, `sqlite_auto_violated`, `pg_migration_partial`, `pg_migration_runs_partial`, `pg_add_auto_violated`, `pg_serial_type_violated`, `pg_auto_violated`, `pg_drop_key_violated`, `pg_replace_key_violated`, `pg_add_bytes_violated`, `pg_add_date_violated`, `pg_json_default_violated`, `pg_add_quote_violated`, `pg_type_violated`, `pg_reserved_violated`, `pg_capitals_violated`, `pg_constraint_name_violated`, `pg_reference_moved_violated`, `pg_remove_referenced_violated`, `sqlite_literal_partial`, `text_literal_violated`, `date_literal_violated`, `json_literal_violated`, `timestamp_literal_violated`, `field_round_trip_partial`, `f32_nan_round_trip`, `int_range`, `int_in_range_partial`, `int_out_of_range_violated`, `sqlite_int_violated`, `sqlite_round_trip_partial`, `columns_values_line_up`, `object_row_sqlite_partial`, `object_row_pg_partial`, `pg_transaction_partial`, `pg_all_or_nothing`, `pg_commit_after_error_violated`, `adapter_serial_partial`, `adapter_dead_partial`, `adapter_progress_partial`, `add_parameters_uri_partial`, `add_parameters_uri_succeeds`, `add_parameters_kv_partial`, `add_parameter_error`, `add_parameter_fragment_violated`, `add_parameter_ampersand_violated`, `add_parameter_space_violated`, `cli_unmigrate_to`, `cli_unmigrate_to_succeeds`, `cli_detach`, `cli_detach_only`, `cli_detach_applied`, `cli_detach_succeeds`, `cli_collapse_partial`, `cli_collapse_refused`, `cli_collapse_succeeds`, `cli_collapse_unapplied_violated`, `cli_collapse_failure_violated`, `many_load_ordered_exact`, `many_load_ordered_partial`, `many_load_ordered_pending_violated`, `many_load_ordered_cached_violated`, `many_get_after_save_partial`, `many_get_after_save_violated`, `pg_round_trip_partial`, `backend_documented_partial`, `documented_unique`, `backend_password_violated`, `backend_scheme_case_violated`, `cli_history`, `cli_add_backend`, `cli_add_backend_keeps`, `cli_add_backend_succeeds`, `cli_remove_backend`, `cli_remove_backend_keeps`, `cli_remove_last_backend`, `cli_remove_backend_succeeds`, `cli_regenerate`, `cli_regenerate_keeps`, `cli_regenerate_succeeds`, `cli_regenerate_crash_violated`, `cli_make`, `cli_make_not`, `cli_make_nothing_partial`, `cli_make_taken`, `cli_make_succeeds`, `turso_load_partial`, `turso_load_first_partial`, `turso_filter_partial`, `turso_delete_partial`, `turso_nested_violated`, `turso_snapshot_violated`, `turso_delete_violated`, `turso_row_round_trip_partial`, `turso_rows`, `turso_int_violated`, `turso_execute_partial`, `turso_execute_violated`, `turso_migration_partial`, `turso_migration_runs_partial`, `turso_semicolon_violated`, `turso_change_violated`, `turso_insert_two_objects_violated`, `model_schema_resolves`, `model_table_partial`, `link_table_partial`, `no_other_tables`, `model_constants_partial`, `cross_name_violated`, `same_name_violated`, `raw_type_violated`, `qualified_type_violated`, `builtin_name_violated`, `compile_order`, `recompile_unchanged`, `recompile_partial`, `removed_model_violated`, `removed_table_name_violated`, `model_frame`, `accepted_model`, `panicked_model_partial`, `rejected_model_violated`, `types_serial_partial`, `types_read_partial`, `recording_succeeds_partial`, `reading_succeeds_partial`, `recording_no_deadlock`, `tables_agree_partial`, `same_source_partial`, `torn_table_violated`, `embedded_current_partial`, `embed_command`, `embedded_stale_violated`, `sqlite_life_partial`, `sqlite_made_partial`, `sqlite_migrate_partial`, `sqlite_tool_migrate_partial`, `sqlite_migrate_succeeds_partial`, `sqlite_unmigrate_partial`, `sqlite_undo_partial`, `sqlite_undo_succeeds_partial`, `sqlite_make_migrate_partial`, `sqlite_make_succeeds_partial`, `sqlite_migrate_stuck_violated`, `crate_migrated_partial`, `crate_first_migration_partial`, `save_shows_partial`, `save_then_get_sqlite_partial`, `delete_shows`, `other_model_shows`, `objects_run_partial`, `empty_table_shows`, `objects_keep_schema`, `save_missing_row_sqlite_violated`, `save_succeeds`, `crate_objects_partial`, `crate_objects_ready_partial`, `crate_objects_kept_partial`, `crate_objects_new_partial`, `crate_objects_kept_violated`, `query_selects_partial`, `query_returns_partial`, `query_first_partial`, `compares_eq`, `keeps_start`, `world_run_partial`, `history_query_partial`, `program_run_partial`, `program_query_partial`, `many_save_objects`, `many_load_objects`, `many_load_returns`, `many_loaded_objects`, `many_set_objects`, `save_object_partial`, `save_object_failed_partial`, `many_save_objects_other_owner_violated`, `project_run_partial`, `project_get_partial`, `project_query_partial`, `project_makes_partial`, `project_catches_up_partial`, `project_migrates_partial`, `project_undoes_partial`, `clear_data`, `clear_data_life`, `project_clear`, `clear_data_succeeds_partial`, `clear_data_stuck_violated`, `clear_data_linked_violated`, `sqlval_json`, `sqltype_json`, `field_json_partial`, `many_json_exact`, `many_json_partial`, `many_json_violated`, `describe_right_partial`, `describe_nothing_partial`, `describe_current_partial`, `describe_current_make`, `describe_migration_partial`, `describe_unknown`, `describe_nan_violated`, `describe_hides_violated`, `pg_save_shows_partial`, `save_then_get_pg_partial`, `pg_delete_shows`, `pg_other_model_shows`, `pg_objects_run_partial`, `pg_empty_table_shows`, `save_missing_row_pg_violated`, `pg_save_succeeds_partial`, `pg_delete_succeeds`, `pg_save_get_partial`, `pg_crate_first_migration_partial`, `pg_crate_objects_partial`, `pg_crate_objects_ready`, `pg_run_stores`, `pg_made_partial`, `pg_life_partial`, `pg_migrate_partial`, `pg_tool_migrate_partial`, `pg_migrate_succeeds_partial`, `pg_unmigrate_partial`, `pg_make_succeeds_partial`, `pg_make_migrate_partial`, `pg_crate_migrated_partial`, `pg_undo_stuck_violated`, `pg_query_selects_partial`, `pg_query_returns_partial`, `pg_query_first_partial`, `pg_first_returns_partial`, `pg_compares_eq`, `pg_stores_empty`, `pg_stores_run_partial`, `pg_history_query_partial`, `pg_json_filter_violated`, `pg_query_delete_partial`, `pg_query_delete_succeeds_partial`, `pg_delete_then_load_partial`, `compile_completes_partial`, `compile_succeeds`, `clean_compile`, `clean_only_current`, `only_current_migrations`, `clean_then_make`, `clean_compile_make`, `delete_table`, `compile_after_delete_partial`, `stale_table_violated`, `macro_means_partial`, `macro_selects_sqlite_partial`, `macro_selects_pg_partial`, `macro_selects_turso_partial`, `macro_condition`, `macro_splice_sqlite_partial`, `macro_splice_pg_partial`, `macro_complete`, `macro_group_violated`, `macro_block_violated`
