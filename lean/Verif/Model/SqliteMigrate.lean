/-
Migrations on SQLite: the backend that generates their SQL, and a database together with butane's
table of records.
-/
import Verif.Model.Ddl
import Verif.Model.MigStore
import Verif.Model.Migrations
import Verif.Spec.Ddl

namespace Butane
open Ddl

/-- The SQLite backend as `create_migration_to` uses it: `name` and `create_migration_sql`,
db/sqlite.rs:36, 76-78, 84-96. -/
def sqliteBackend (kw : String → Bool) (p : LitPrinters) : MigBackend :=
  ⟨"sqlite", fun current ops =>
    match SqliteDdl.migrationSql kw p current ops with
    | .ok t => .ok (String.ofList t)
    | .err _ => .error .sql
    | .panic => .error .panic⟩

/-- `ButaneMigration::TABLE`, migrations/mod.rs:302, 374. -/
def recordsName : String := "butane_migrations"

/-- The table of records (`migrations_table`, migrations/mod.rs:300-314) with these names in it, as
db/sqlite.rs:675-694 creates it. -/
def recordsTable (names : List String) : STable :=
  ⟨[⟨"name", ["TEXT"], [.notNull, .primaryKey]⟩], [], names.map fun n => [.text n]⟩

/-- The other tables. -/
def otherTables (d : SDb) : SDb := d.filter fun e => decide (e.1 ≠ recordsName)

/-- The SQLite database that Model/Migrations.lean describes in two parts. -/
def wholeDb (db : MigDb SDb) : SDb :=
  match db.log with
  | none => otherTables db.user
  | some names => (otherTables db.user).insert recordsName (recordsTable names)

/-- The name in a row of the table of records (`ButaneMigration::from_row`,
migrations/mod.rs:354-363). -/
def recordedName : List SqliteVal → Option String
  | [.text n] => some n
  | _ => none

/-- The two parts of an SQLite database. -/
def splitDb (d : SDb) : MigDb SDb :=
  ⟨otherTables d, (d.lookup recordsName).map fun t => t.rows.filterMap recordedName⟩

/-- `ConnectionMethods::execute` with the SQL of a migration, db/sqlite.rs:228-234
(`execute_batch`).  A failure leaves the database as it was, because the transaction of the
migration is rolled back (`runMig` in Model/Migrations.lean). -/
def sqliteExec (env : SqliteEnv) (reserved : String → Bool) (sql : String) (db : MigDb SDb) :
    Except MErr (MigDb SDb) :=
  match execScript env reserved (wholeDb db) sql.toList with
  | none => .error .db
  | some d => .ok (splitDb d)

end Butane
