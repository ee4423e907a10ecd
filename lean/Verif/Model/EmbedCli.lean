/-
Keeping the migrations in the source of the program up to date.
Models `embed`, `update_embedded`, `CliState` of butane_cli/src/lib.rs and the calls of
`update_embedded` by the other commands.
-/
import Verif.Model.Cli

namespace Butane.Cli
variable {U : Type}

/-- The files of a crate that the tool works on: the migrations, `clistate.json` (`none` if
it is not there), whether there is a directory `src`, and the migrations in
`src/butane_migrations.rs`.  That text is read back by the compiler as it was written is C57,
and that `clistate.json` is read back is assumed. -/
structure Crate where
  fs : FsMigrations
  state : Option Bool
  src : Bool
  program : Option MemMigrations

/-- `CliState::load`, lib.rs:39-46: no file is the default. -/
def Crate.embedded (p : Crate) : Bool :=
  match p.state with
  | none => false
  | some b => b

/-- `embed`, lib.rs:357-396: the source is written, then the state. -/
def embed (json : Bool) (p : Crate) : Except CliErr Unit × Crate :=
  if !p.src then (.error .exit, p)
  else
    match p.fs.embed json with
    | .error e => (.error (.lib e), p)
    | .ok mem => (.ok (), { p with program := some mem, state := some true })

/-- `update_embedded`, lib.rs:398-405. -/
def updateEmbedded (json : Bool) (p : Crate) : Except CliErr Unit × Crate :=
  if p.embedded then embed json p else (.ok (), p)

/-- The end of a command that has changed the migrations: if it has not failed, the source is
brought up to date. -/
def finish (json : Bool) (p : Crate) (r : Except CliErr Unit) (fs : FsMigrations) : Except CliErr Unit × Crate :=
  match r with
  | .error e => (.error e, { p with fs := fs })
  | .ok () => updateEmbedded json { p with fs := fs }

/-- `make_migration`, lib.rs:80-100: the source is brought up to date if a migration was made
(lib.rs:93-94). -/
def makeCmd (json : Bool) (get : String → Option MigBackend) (spec : Option (Option MigBackend)) (name : String)
    (p : Crate) : Except CliErr Unit × Crate :=
  match makeMigration json get spec name p.fs with
  | (.error e, fs) => (.error e, { p with fs := fs })
  | (.ok false, fs) => (.ok (), { p with fs := fs })
  | (.ok true, fs) => finish json p (.ok ()) fs

/-- `detach_latest_migration`, lib.rs:228-264. -/
def detachCmd (json : Bool) (conn : Option (Except MErr (MigConn U))) (db : MigDb U) (p : Crate) :
    Except CliErr Unit × Crate :=
  finish json p (detachLatest conn db p.fs).1 (detachLatest conn db p.fs).2

/-- `collapse_migrations`, lib.rs:591-636. -/
def collapseCmd (json : Bool) (get : String → Option MigBackend) (conn : Except CliErr (MigConn U)) (name : String)
    (db : MigDb U) (p : Crate) : Except CliErr Unit × MigDb U × Crate :=
  let (r, db, fs) := collapse json get conn name db p.fs
  ((finish json p r fs).1, db, (finish json p r fs).2)

/-- `add_backend`, lib.rs:428-468. -/
def addBackendCmd (json : Bool) (get : String → Option MigBackend) (name : String) (p : Crate) :
    Except CliErr Unit × Crate :=
  finish json p (addBackend json get name p.fs).1 (addBackend json get name p.fs).2

/-- `remove_backend`, lib.rs:471-492. -/
def removeBackendCmd (json : Bool) (get : String → Option MigBackend) (name : String) (p : Crate) :
    Except CliErr Unit × Crate :=
  finish json p (removeBackend get name p.fs).1 (removeBackend get name p.fs).2

/-- `regenerate_migrations`, lib.rs:495-525. -/
def regenerateCmd (json : Bool) (get : String → Option MigBackend) (p : Crate) : Except CliErr Unit × Crate :=
  finish json p (regenerate json get p.fs).1 (regenerate json get p.fs).2

end Butane.Cli
