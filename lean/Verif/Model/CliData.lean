/-
The command of the command line tool that deletes the data, on the SQLite backend.
Models `clear_data` of butane_cli/src/lib.rs, with the statement texts of Model/Statements.lean and the
connection of Model/SqliteObj.lean.
-/
import Verif.Model.Cli
import Verif.Model.SqliteObj

namespace Butane.Cli
open Butane.Ddl

/-- The loop of `clear_data`, lib.rs:655-658: the tables that are announced ("Deleting data from …"), the
result, and the database.  `fails` tells for which tables the statement fails for reasons that are not in
the database, as a lost connection. -/
def clearLoop (k : SqliteConn) (fails : String → Bool) : List String → SDb → List String × Except CliErr Unit × SDb
  | [], u => ([], .ok (), u)
  | n :: rest, u =>
    if fails n then ([n], .error (.lib .db), u)
    else
      match k.exec u (Backend.sqlite.deleteWhere k.kw n .true_) with
      | .error _ => ([n], .error (.lib .db), u)
      | .ok u' => (n :: (clearLoop k fails rest u').1, (clearLoop k fails rest u').2)

/-- `clear_data`, lib.rs:645-660, from where there is a connection. -/
def clearData (json : Bool) (k : SqliteConn) (fails : String → Bool) (s : FsMigrations) (c : MigConn SDb)
    (db : MigDb SDb) : List String × Except CliErr Unit × MigDb SDb :=
  match (s.toMigs "sqlite").lastApplied (rounds s) c db with
  | .error e => ([], .error (.lib e), db)
  | .ok none => ([], .error .exit, db)
  | .ok (some m) =>
    match s.getDb json m with
    | .error e => ([], .error (.lib e), db)
    | .ok schema =>
      match clearLoop k fails (schema.tables.map (·.2.name)) db.user with
      | (shown, r, u) => (shown, r, ⟨u, db.log⟩)

end Butane.Cli
