/-
Migrations of a PostgreSQL database.
Models butane_core/src/db/pg.rs (the backend and the execution of the SQL of a migration).
-/
import Verif.Model.SqliteMigrate
import Verif.Spec.PgDdl

namespace Butane
open Butane.PgCat

/-- `PgBackend`, db/pg.rs:27, 42-58. -/
def pgBackend (kw : String → Bool) (p : LitPrinters) : MigBackend :=
  ⟨"pg", fun current ops =>
    match PgDdl.migrationSql kw p current ops with
    | .ok t => .ok (String.ofList t)
    | .err _ => .error .sql
    | .panic => .error .panic⟩

/-- The table of records (`migrations_table`, migrations/mod.rs:300-314) as db/pg.rs:613-627 creates
it. -/
def pgRecords : PTable :=
  ⟨[⟨"name", ["text"], true, false⟩], [⟨"butane_migrations_pkey", .pk "name"⟩]⟩

/-- The other tables. -/
def pgOthers (d : PgCat.PDb) : PgCat.PDb := d.filter fun e => decide (e.1 ≠ recordsName)

/-- The catalog of the database that Model/Migrations.lean describes in two parts. -/
def pgWhole (db : MigDb PgCat.PDb) : PgCat.PDb :=
  match db.log with
  | none => pgOthers db.user
  | some _ => (pgOthers db.user).insert recordsName pgRecords

/-- `ConnectionMethods::execute` with the SQL of a migration, db/pg.rs:166-174 (`batch_execute`).  The
statements of migrations do not change rows: the records stay as long as their table does.  A failure
leaves the database as it was, because the transaction of the migration is rolled back (`runMig` in
Model/Migrations.lean). -/
def pgExec (env : PgEnv) (reserved : String → Bool) (sql : String) (db : MigDb PgCat.PDb) :
    Except MErr (MigDb PgCat.PDb) :=
  match PgCat.execScript env reserved (pgWhole db) sql.toList with
  | none => .error .db
  | some d => .ok ⟨pgOthers d, (d.lookup recordsName).map fun _ => db.log.getD []⟩

end Butane
