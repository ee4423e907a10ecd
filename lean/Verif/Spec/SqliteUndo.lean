/-
Undoing migrations of a SQLite database.
-/
import Verif.Spec.SqliteMigrate

namespace Butane.Spec
open Butane Butane.Ddl

/-- Migrations are undone, by the program or with the tool, to a migration or only the last one; whatever
is reported. -/
inductive Undoes (env : SqliteEnv) (res : String → Bool) (s : FsMigrations) (db db' : MigDb SDb) : Prop
  | program {c : MigConn SDb} {r} : c.exec = sqliteExec env res →
      (s.toMigs "sqlite").unmigrate (Cli.rounds s) c db = (r, db') → Undoes env res s db db'
  | tool {c : MigConn SDb} {name r} : c.exec = sqliteExec env res →
      Cli.unmigrateTo (s.toMigs "sqlite") (Cli.rounds s) c name db = (r, db') → Undoes env res s db db'
  | latest {c : MigConn SDb} {r} : c.exec = sqliteExec env res →
      Cli.unmigrateLatest (s.toMigs "sqlite") (Cli.rounds s) c db = (r, db') → Undoes env res s db db'

end Butane.Spec
