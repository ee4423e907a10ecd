/-
The commands of the command line tool that work on migrations.
Models butane_cli/src/lib.rs.
-/
import Verif.Model.MigStore

namespace Butane.Cli
variable {M U : Type}

/-- How a command ends if not well: a message and `exit(1)` (`exit`), an error, which
`handle_error` (lib.rs:750-758) prints before `exit(1)` (`lib` for errors of the library,
`other` for those of the tool), or a panic. -/
inductive CliErr where
  | exit
  | lib (e : MErr)
  | other
  | panic
deriving DecidableEq, Repr

/-- The command ends with a message (and not with a panic). -/
def CliErr.reported : CliErr → Bool
  | .panic => false
  | .lib .panic => false
  | _ => true

/-- `?` on an error of the library. -/
def lib {α : Type} : Except MErr α → Except CliErr α
  | .ok a => .ok a
  | .error e => .error (.lib e)

/-! ### Applying and undoing -/

/-- The loop of `migrate`, lib.rs:271-280.  The calls to the database are numbered as in
Model/Migrations.lean. -/
def migrateLoop (ms : Migs M) (c : MigConn U) (name : Option String) :
    Nat → List M → MigDb U → Except CliErr Unit × MigDb U
  | _, [], db => (.ok (), db)
  | n, m :: rest, db =>
    match ms.applyOne c n m db with
    | (.error e, db') => (.error (.lib e), db')
    | (.ok (), db') =>
      match name with
      | none => migrateLoop ms c name (n + 4) rest db'
      | some t => if t = ms.name m then (.ok (), db') else migrateLoop ms c name (n + 4) rest db'

/-- `migrate`, lib.rs:266-282, from where there is a connection. -/
def migrate (ms : Migs M) (fuel : Nat) (c : MigConn U) (name : Option String) (db : MigDb U) :
    Except CliErr Unit × MigDb U :=
  match ms.unapplied fuel c db with
  | .error e => (.error (.lib e), db)
  | .ok l => migrateLoop ms c name 2 l db

/-- The loop of `unmigrate_to`, lib.rs:335-338. -/
def undoList (ms : Migs M) (c : MigConn U) : Nat → List M → MigDb U → Except CliErr Unit × MigDb U
  | _, [], db => (.ok (), db)
  | n, m :: rest, db =>
    match ms.downgradeOne c n m db with
    | (.error e, db') => (.error (.lib e), db')
    | (.ok (), db') => undoList ms c (n + 4) rest db'

/-- The migrations that `unmigrate_to` undoes, of those after the target, lib.rs:327-333. -/
def upTo (ms : Migs M) (latest last : M) (l : List M) : Except CliErr (List M) :=
  if ms.name last ≠ ms.name latest then
    match l.findIdx? (fun m => ms.name m == ms.name latest) with
    | none => .error .panic
    | some i => .ok (l.take (i + 1))
  else .ok l

/-- `unmigrate_to`, lib.rs:294-340. -/
def unmigrateTo (ms : Migs M) (fuel : Nat) (c : MigConn U) (to_ : String) (db : MigDb U) :
    Except CliErr Unit × MigDb U :=
  match ms.get to_ with
  | none => (.error .exit, db)
  | some target =>
    match ms.lastApplied fuel c db with
    | .error _ => (.error .exit, db)
    | .ok none => (.error .exit, db)
    | .ok (some latest) =>
      if ms.name target = ms.name latest then (.error .exit, db)
      else
        match ms.migrationsSince fuel target with
        | .error e => (.error (.lib e), db)
        | .ok l =>
          match l.getLast? with
          | none => (.error .other, db)
          | some last =>
            match upTo ms latest last l with
            | .error e => (.error e, db)
            | .ok l => undoList ms c 2 l.reverse db

/-- `unmigrate_latest`, lib.rs:342-354. -/
def unmigrateLatest (ms : Migs M) (fuel : Nat) (c : MigConn U) (db : MigDb U) :
    Except CliErr Unit × MigDb U :=
  match ms.lastApplied fuel c db with
  | .error e => (.error (.lib e), db)
  | .ok none => (.error .exit, db)
  | .ok (some m) =>
    match ms.downgradeOne c 2 m db with
    | (.error e, db') => (.error (.lib e), db')
    | (.ok (), db') => (.ok (), db')

/-- `list_migrations`, lib.rs:573-588: the names, and whether they are listed as applied. -/
def listMigrations (ms : Migs M) (fuel : Nat) (c : MigConn U) (db : MigDb U) :
    Except CliErr (List (String × Bool)) :=
  match ms.unapplied fuel c db with
  | .error e => .error (.lib e)
  | .ok unapplied =>
    match ms.allMigrations fuel with
    | .error e => .error (.lib e)
    | .ok all => .ok (all.map fun m => (ms.name m, !(unapplied.map ms.name).contains (ms.name m)))

/-! ### Changing the files -/

/-- Rounds that are enough for the loops over the migrations on disk. -/
def rounds (s : FsMigrations) : Nat := s.dirs.length + 2

/-- The migrations on disk.  The backend does not matter for what is done with these. -/
def chain (s : FsMigrations) : Migs String := s.toMigs ""

/-- Whether the migration `top` may be detached, lib.rs:243-251: it is not the last one that
is applied to the database, if there is a connection file. -/
def detachCheck (conn : Option (Except MErr (MigConn U))) (db : MigDb U) (s : FsMigrations) (top : String) :
    Except CliErr Unit :=
  match conn with
  | none => .ok ()
  | some (.error e) => .error (.lib e)
  | some (.ok c) =>
    match (chain s).lastApplied (rounds s) c db with
    | .error e => .error (.lib e)
    | .ok none => .ok ()
    | .ok (some applied) => if applied = top then .error .exit else .ok ()

/-- `detach_latest_migration`, lib.rs:228-264.  `conn` is `none` if there is no connection
file, and the result of connecting otherwise.  `update_embedded` is in Model/EmbedCli.lean. -/
def detachLatest (conn : Option (Except MErr (MigConn U))) (db : MigDb U) (s : FsMigrations) :
    Except CliErr Unit × FsMigrations :=
  match (chain s).allMigrations (rounds s) with
  | .error _ => (.error .exit, s)
  | .ok all =>
    match all.head? with
    | none => (.error .exit, s)
    | some initial =>
      match s.getLatest with
      | none => (.error .panic, s)
      | some top =>
        if initial = top then (.error .exit, s)
        else
          match detachCheck conn db s top with
          | .error e => (.error e, s)
          | .ok () =>
            -- all_migrations[all_migrations.len() - 2]
            if all.length < 2 then (.error .panic, s)
            else
              match s.detachLatest with
              | (.error e, s') => (.error (.lib e), s')
              | (.ok (), s') => (.ok (), s')

/-- `load_latest_migration_backends`, lib.rs:529-552; `get` is `db::get_backend`. -/
def latestBackends (get : String → Option MigBackend) (s : FsMigrations) : Except CliErr (List MigBackend) :=
  match s.getLatest with
  | none => .error .other
  | some latest =>
    let names := (s.info latest).backends
    if names.isEmpty then .error .panic
    else
      match names.mapM get with
      | none => .error .other
      | some backends => .ok backends

/-- A call outside of transactions. -/
def call (c : MigConn U) (n : Nat) (f : MigDb U → Except MErr (MigDb U)) (db : MigDb U) :
    Except MErr Unit × MigDb U :=
  match c.outcome n with
  | .fail => (.error .db, db)
  | .ok =>
    match f db with
    | .error e => (.error e, db)
    | .ok db' => (.ok (), db')
  | .lost =>
    match f db with
    | .error e => (.error e, db)
    | .ok db' => (.error .db, db')

/-- `delete_where(ButaneMigration::TABLE, BoolExpr::True)`, mod.rs:202. -/
def clearRecords (db : MigDb U) : Except MErr (MigDb U) :=
  match db.log with
  | none => .error .db
  | some _ => .ok { db with log := some [] }

/-- `collapse_migrations`, lib.rs:591-636, with `clear_migrations`, mod.rs:200-204.  `conn`
is the result of reading the connection file and connecting, `name` the name of the new
migration, from the clock.  `update_embedded` is in Model/EmbedCli.lean. -/
def collapse (json : Bool) (get : String → Option MigBackend) (conn : Except CliErr (MigConn U))
    (name : String) (db : MigDb U) (s : FsMigrations) : Except CliErr Unit × MigDb U × FsMigrations :=
  match (chain s).allMigrations (rounds s) with
  | .error _ => (.error .exit, db, s)
  | .ok all =>
    match all.head? with
    | none => (.error .exit, db, s)
    | some initial =>
      match s.getLatest with
      | none => (.error .panic, db, s)
      | some latest =>
        if initial = latest then (.error .exit, db, s)
        else
          match latestBackends get s with
          | .error e => (.error e, db, s)
          | .ok backends =>
            match conn with
            | .error e => (.error e, db, s)
            | .ok c =>
              match (chain s).lastApplied (rounds s) c db with
              | .error e => (.error (.lib e), db, s)
              | .ok none => (.error .exit, db, s)
              | .ok (some applied) =>
                match s.getDb json applied with
                | .error e => (.error (.lib e), db, s)
                | .ok latestDb =>
                  let s := s.deleteMigrations
                  match call c 2 clearRecords db with
                  | (.error e, db) => (.error (.lib e), db, s)
                  | (.ok (), db) =>
                    match createMigrationTo (FsMigrations.ops json) backends name none latestDb s with
                    | (.error e, s) => (.error (.lib e), db, s)
                    | (.ok _, s) =>
                      match s.getLatest with
                      | none => (.error .panic, db, s)
                      | some m =>
                        match call c 3 (markApplied m) db with
                        | (.error e, db) => (.error (.lib e), db, s)
                        | (.ok (), db) => (.ok (), db, s)

/-- The loop of `add_backend`, lib.rs:444-463. -/
def addBackendLoop (json : Bool) (b : MigBackend) :
    List String → ADB → FsMigrations → Except CliErr Unit × FsMigrations
  | [], _, s => (.ok (), s)
  | m :: rest, fromDb, s =>
    match s.getDb json m with
    | .error e => (.error (.lib e), s)
    | .ok toDb =>
      let ops := diff fromDb toDb
      if ops.isEmpty then (.error .panic, s)
      else
        let ops : List Operation :=
          if fromDb.tables.isEmpty then ops ++ [.addTableIfNotExists migrationsTable] else ops
        match b.sql fromDb ops with
        | .error e => (.error (.lib e), s)
        | .ok up =>
          match b.sql toDb (diff toDb fromDb) with
          | .error e => (.error (.lib e), s)
          | .ok down =>
            match s.addSql b.name up down m with
            | (.error e, s) => (.error (.lib e), s)
            | (.ok (), s) => addBackendLoop json b rest toDb s

/-- `add_backend`, lib.rs:428-468.  `update_embedded` is in Model/EmbedCli.lean. -/
def addBackend (json : Bool) (get : String → Option MigBackend) (name : String) (s : FsMigrations) :
    Except CliErr Unit × FsMigrations :=
  match latestBackends get s with
  | .error e => (.error e, s)
  | .ok existing =>
    if existing.any (fun b => b.name == name) then (.error .other, s)
    else
      match get name with
      | none => (.error .other, s)
      | some b =>
        match (chain s).allMigrations (rounds s) with
        | .error e => (.error (.lib e), s)
        | .ok all => addBackendLoop json b all ADB.new s

/-- The loop of `remove_backend`, lib.rs:484-487. -/
def removeBackendLoop (b : String) : List String → FsMigrations → Except CliErr Unit × FsMigrations
  | [], s => (.ok (), s)
  | m :: rest, s =>
    match s.removeSql b m with
    | (.error e, s) => (.error (.lib e), s)
    | (.ok (), s) => removeBackendLoop b rest s

/-- `remove_backend`, lib.rs:471-492.  `update_embedded` is in Model/EmbedCli.lean. -/
def removeBackend (get : String → Option MigBackend) (name : String) (s : FsMigrations) :
    Except CliErr Unit × FsMigrations :=
  match latestBackends get s with
  | .error e => (.error e, s)
  | .ok existing =>
    if existing.length = 1 then (.error .other, s)
    else
      match get name with
      | none => (.error .other, s)
      | some b =>
        match (chain s).allMigrations (rounds s) with
        | .error e => (.error (.lib e), s)
        | .ok all => removeBackendLoop b.name all s

/-- `delete_db`, fsmigrations.rs:153-176: everything goes, except that `info.json`, if it is
there, is written anew with only the predecessor. -/
def deleteDb (n : String) (s : FsMigrations) : FsMigrations :=
  s.write n fun d =>
    { FsDir.empty with info := d.info.map fun i => { FsInfo.new with fromName := i.fromName } }

/-- The loop of `regenerate_migrations`, lib.rs:503-520. -/
def regenerateLoop (json : Bool) (backends : List MigBackend) :
    List String → Option String → FsMigrations → Except CliErr Unit × FsMigrations
  | [], _, s => (.ok (), s)
  | m :: rest, fromName, s =>
    match s.getDb json m with
    | .error e => (.error (.lib e), s)
    | .ok toDb =>
      let from_ : Option String :=
        match fromName with
        | none => none
        | some n => s.get n
      match createMigrationTo (FsMigrations.ops json) backends m from_ toDb (deleteDb m s) with
      | (.error e, s) => (.error (.lib e), s)
      | (.ok _, s) => regenerateLoop json backends rest (some m) s

/-- `regenerate_migrations`, lib.rs:495-525.  `update_embedded` is in Model/EmbedCli.lean. -/
def regenerate (json : Bool) (get : String → Option MigBackend) (s : FsMigrations) :
    Except CliErr Unit × FsMigrations :=
  match latestBackends get s with
  | .error e => (.error e, s)
  | .ok backends =>
    match (chain s).allMigrations (rounds s) with
    | .error e => (.error (.lib e), s)
    | .ok all => regenerateLoop json backends all none s

/-- `load_backends`, lib.rs:556-571: those of the latest migration, or else the one of the
connection file, if any (`none` is an unknown one). -/
def loadBackends (get : String → Option MigBackend) (spec : Option (Option MigBackend)) (s : FsMigrations) :
    Except CliErr (List MigBackend) :=
  match latestBackends get s with
  | .ok backends => .ok backends
  | .error .panic => .error .panic
  | .error _ =>
    match spec with
    | none => .error .other
    | some none => .error .panic
    | some (some b) => .ok [b]

/-- `make_migration`, lib.rs:80-100, with `create_migration`, mod.rs:224-232.  `name` is the
name with the time in front.  The answer says whether a migration was made.
`update_embedded` is in Model/EmbedCli.lean. -/
def makeMigration (json : Bool) (get : String → Option MigBackend) (spec : Option (Option MigBackend))
    (name : String) (s : FsMigrations) : Except CliErr Bool × FsMigrations :=
  match (chain s).allMigrations (rounds s) with
  | .error e => (.error (.lib e), s)
  | .ok all =>
    if all.contains name then (.error .exit, s)
    else
      match loadBackends get spec s with
      | .error e => (.error e, s)
      | .ok backends =>
        match s.getDb json "current" with
        | .error e => (.error (.lib e), s)
        | .ok toDb =>
          match createMigrationTo (FsMigrations.ops json) backends name s.getLatest toDb s with
          | (.error e, s) => (.error (.lib e), s)
          | (.ok made, s) => (.ok made, s)

end Butane.Cli
