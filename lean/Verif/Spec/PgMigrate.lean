/-
What is asked of schemas whose migrations are run on PostgreSQL, and of the database they are run
on.
-/
import Verif.Model.PgMigrate
import Verif.Spec.DdlMigrate
import Verif.Spec.Cli

namespace Butane.Spec
open Butane Butane.PgCat

/-- The schema together with the table butane keeps its records in. -/
def withRecordsTable (adb : ADB) : ADB :=
  ⟨adb.tables.insert "butane_migrations" migrationsTable, adb.extraTypes⟩

/-- A schema butane can describe to PostgreSQL, without a table for the records. -/
structure PgDescribed (kw : String → Bool) (adb : ADB) : Prop where
  valid : ValidSchema adb
  pg : PgSchema kw adb
  own : adb.getTable "butane_migrations" = none

/-- A change of schema butane can make on PostgreSQL: no names collide, those of the records
included, the values that have to be written are literals, and tables keep their keys. -/
structure PgChange (p : LitPrinters) (old new : ADB) : Prop where
  names : NamesApart (withRecordsTable old) (withRecordsTable new)
  writable : PgWritable p old new
  keys : KeepsKeys old new

/-- The tables of a database, besides the records, are those of the schema. -/
structure PgHasSchema (adb : ADB) (u : PgCat.PDb) : Prop where
  tables : PgImplements adb u
  proper : PgProper u

open Cli in
/-- The histories of a project's migrations and a PostgreSQL database: both start empty.  Building
the code changes `current`; migrations are made; backends are added and removed; the latest migration
is detached, with this database in the connection file; migrations are applied to the database and
undone, by the program and with the tool.  Each command may fail at any point.

The rows of the tables are not part of the database; what they permit may be different each time.
The tool's PostgreSQL backend is that of the code.  A new migration has a name that is not in use,
and is made for a schema that butane can describe to PostgreSQL, get to and get back from. -/
inductive PgLife (json : Bool) (kw res : String → Bool) (p : LitPrinters) :
    FsMigrations → MigDb PgCat.PDb → Prop
  | empty : PgLife json kw res p ⟨[], none⟩ ⟨[], none⟩
  | build {s s' db} : PgLife json kw res p s db → s'.latest = s.latest →
      (∀ n, n ≠ "current" → s'.dirs.lookup n = s.dirs.lookup n) → PgLife json kw res p s' db
  | make {s s' db get spec name r} : PgLife json kw res p s db → Finds get →
      (∀ b, get b.name = some b ∨ spec = some (some b) → b.name = "pg" → b = pgBackend kw p) →
      s.dirs.lookup name = none → name ≠ "current" → ¬ Recorded db name →
      (∀ new, s.getDb json "current" = .ok new → Settled new ∧ PgDescribed kw new ∧
        ∀ old, LatestSchema json s old → PgChange p old new ∧ PgChange p new old) →
      makeMigration json get spec name s = (r, s') → PgLife json kw res p s' db
  | detach {s s' db} {c : MigConn PgCat.PDb} {r} : PgLife json kw res p s db →
      detachLatest (some (.ok c)) db s = (r, s') → PgLife json kw res p s' db
  | addBackend {s s' db get name r} : PgLife json kw res p s db → Finds get → name ≠ "pg" →
      addBackend json get name s = (r, s') → PgLife json kw res p s' db
  | removeBackend {s s' db get name r} : PgLife json kw res p s db → Finds get → name ≠ "pg" →
      removeBackend get name s = (r, s') → PgLife json kw res p s' db
  | migrate {s db db'} {c : MigConn PgCat.PDb} {env r} : PgLife json kw res p s db → Naming env →
      c.exec = pgExec env res → (s.toMigs "pg").migrate (Cli.rounds s) c db = (r, db') → PgLife json kw res p s db'
  | unmigrate {s db db'} {c : MigConn PgCat.PDb} {env r} : PgLife json kw res p s db → Naming env →
      c.exec = pgExec env res → (s.toMigs "pg").unmigrate (Cli.rounds s) c db = (r, db') → PgLife json kw res p s db'
  | cliMigrate {s db db'} {c : MigConn PgCat.PDb} {env name r} : PgLife json kw res p s db → Naming env →
      c.exec = pgExec env res → Cli.migrate (s.toMigs "pg") (Cli.rounds s) c name db = (r, db') →
      PgLife json kw res p s db'
  | unmigrateTo {s db db'} {c : MigConn PgCat.PDb} {env name r} : PgLife json kw res p s db → Naming env →
      c.exec = pgExec env res → unmigrateTo (s.toMigs "pg") (Cli.rounds s) c name db = (r, db') →
      PgLife json kw res p s db'
  | unmigrateLatest {s db db'} {c : MigConn PgCat.PDb} {env r} : PgLife json kw res p s db → Naming env →
      c.exec = pgExec env res → unmigrateLatest (s.toMigs "pg") (Cli.rounds s) c db = (r, db') →
      PgLife json kw res p s db'

end Butane.Spec
