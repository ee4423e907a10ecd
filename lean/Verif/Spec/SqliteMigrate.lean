/-
What is asked of schemas whose migrations are run on SQLite, and of the database they are run on.
-/
import Verif.Model.SqliteMigrate
import Verif.Spec.DdlMigrate
import Verif.Spec.Cli

namespace Butane.Spec
open Butane Butane.Ddl

/-- No table has the name of the table butane keeps its records in, and none refers to it. -/
structure NoRecordsTable (adb : ADB) : Prop where
  absent : adb.getTable "butane_migrations" = none
  refs : ∀ n t, adb.getTable n = some t → ∀ c ∈ t.columns, ∀ k,
    c.reference ≠ some (.literal "butane_migrations" k)

/-- A schema butane can describe to SQLite. -/
structure SqliteSchema (adb : ADB) : Prop where
  valid : ValidSchema adb
  plain : PlainSchema adb
  own : NoRecordsTable adb

/-- The columns that are new in tables of both schemas can be added. -/
def Addable (env : SqliteEnv) (p : LitPrinters) (old new : ADB) : Prop :=
  ∀ n s t c y, old.getTable n = some s → new.getTable n = some t → s.column c = none →
    t.column c = some y → AddableColumn env p y

/-- What SQLite guarantees of a table: the rows have a value for each column, and no value twice in a
unique column. -/
structure WholeTable (t : STable) : Prop where
  distinct : (t.cols.map (·.name)).Nodup
  rows : ∀ r ∈ t.rows, t.cols.length = r.length
  unique : uniqueOk t.cols t.rows = true

def WholeRows (u : SDb) : Prop := ∀ e ∈ u, WholeTable e.2

/-- The tables of a database, besides the records, are those of the schema. -/
structure HasSchema (env : SqliteEnv) (adb : ADB) (u : SDb) : Prop where
  tables : Implements adb u
  proper : Proper.Db env u
  whole : WholeRows u

/-- No table has rows. -/
def NoRows (u : SDb) : Prop := ∀ e ∈ u, e.2.rows = []

/-- The rows through a sequence of schemas, of which the database had one after the other: each
step keeps them.  (Two schemas that are the same need not be equal: the order of columns, and zeros
of different sign as defaults.) -/
inductive RowsThrough (env : SqliteEnv) (codecs : TextCodecs) : List ADB → SDb → SDb → Prop
  | stay {a u} : RowsThrough env codecs [a] u u
  | step {a b l u v w old new} : SameSchema old a → SameSchema new b → HasSchema env a u → HasSchema env b v →
      RowsKept env codecs old new u v → RowsThrough env codecs (b :: l) v w → RowsThrough env codecs (a :: b :: l) u w

open Cli in
/-- The histories of a project's migrations and an SQLite database: both start empty.  Building the
code changes `current`; migrations are made; backends are added and removed; the latest migration is
detached, with this database in the connection file; migrations are applied to the database and
undone, by the program and with the tool; and the program writes rows.  Each command may fail at
any point.

The tool's SQLite backend is that of the code.  A new migration has a name that is not in use, and
is made for a schema that butane can describe to SQLite and get to and back with columns that can be
added. -/
inductive SqliteLife (json : Bool) (env : SqliteEnv) (kw res : String → Bool) (p : LitPrinters) :
    FsMigrations → MigDb SDb → Prop
  | empty : SqliteLife json env kw res p ⟨[], none⟩ ⟨[], none⟩
  | build {s s' db} : SqliteLife json env kw res p s db → s'.latest = s.latest →
      (∀ n, n ≠ "current" → s'.dirs.lookup n = s.dirs.lookup n) → SqliteLife json env kw res p s' db
  | make {s s' db get spec name r} : SqliteLife json env kw res p s db → Finds get →
      (∀ b, get b.name = some b ∨ spec = some (some b) → b.name = "sqlite" → b = sqliteBackend kw p) →
      s.dirs.lookup name = none → name ≠ "current" → ¬ Recorded db name →
      (∀ new, s.getDb json "current" = .ok new → Settled new ∧ SqliteSchema new ∧
        ∀ old, LatestSchema json s old → Addable env p old new ∧ Addable env p new old) →
      makeMigration json get spec name s = (r, s') → SqliteLife json env kw res p s' db
  | detach {s s' db} {c : MigConn SDb} {r} : SqliteLife json env kw res p s db →
      detachLatest (some (.ok c)) db s = (r, s') → SqliteLife json env kw res p s' db
  | addBackend {s s' db get name r} : SqliteLife json env kw res p s db → Finds get → name ≠ "sqlite" →
      addBackend json get name s = (r, s') → SqliteLife json env kw res p s' db
  | removeBackend {s s' db get name r} : SqliteLife json env kw res p s db → Finds get → name ≠ "sqlite" →
      removeBackend get name s = (r, s') → SqliteLife json env kw res p s' db
  | write {s db u} : SqliteLife json env kw res p s db →
      (∀ adb, HasSchema env adb db.user → HasSchema env adb u) → SqliteLife json env kw res p s ⟨u, db.log⟩
  | migrate {s db db'} {c : MigConn SDb} {r} : SqliteLife json env kw res p s db → c.exec = sqliteExec env res →
      (s.toMigs "sqlite").migrate (Cli.rounds s) c db = (r, db') → SqliteLife json env kw res p s db'
  | unmigrate {s db db'} {c : MigConn SDb} {r} : SqliteLife json env kw res p s db → c.exec = sqliteExec env res →
      (s.toMigs "sqlite").unmigrate (Cli.rounds s) c db = (r, db') → SqliteLife json env kw res p s db'
  | cliMigrate {s db db'} {c : MigConn SDb} {name r} : SqliteLife json env kw res p s db →
      c.exec = sqliteExec env res → Cli.migrate (s.toMigs "sqlite") (Cli.rounds s) c name db = (r, db') →
      SqliteLife json env kw res p s db'
  | unmigrateTo {s db db'} {c : MigConn SDb} {name r} : SqliteLife json env kw res p s db →
      c.exec = sqliteExec env res → unmigrateTo (s.toMigs "sqlite") (Cli.rounds s) c name db = (r, db') →
      SqliteLife json env kw res p s db'
  | unmigrateLatest {s db db'} {c : MigConn SDb} {r} : SqliteLife json env kw res p s db →
      c.exec = sqliteExec env res → unmigrateLatest (s.toMigs "sqlite") (Cli.rounds s) c db = (r, db') →
      SqliteLife json env kw res p s db'

end Butane.Spec
