/-
Collections of migrations, applying and undoing them.
Models butane_core/src/migrations/mod.rs (trait `Migrations`) and
butane_core/src/migrations/migration.rs (trait `Migration`).
-/
namespace Butane

/-- The errors that matter here: a statement, a transaction or the connection failed
(`db`), a file of a migration is unreadable (`read`), `MigrationError("Migration not in
chain")`, `UnknownBackend`.  `outOfFuel` is a loop that has not ended (see `allLoop`).
Making migrations (Model/MigStore.lean) also has: a type cannot be resolved (`types`), no SQL
can be generated (`sql`), `MigrationError("unmodified requires a from")`,
`MigrationError("Migration not found")`, and panics. -/
inductive MErr where
  | db
  | read
  | notInChain
  | unknownBackend
  | types
  | sql
  | noFrom
  | notFound
  | panic
  | outOfFuel
deriving DecidableEq, Repr

/-- A collection of migrations as the default methods of `Migrations` see it:
`get_migration`, `latest` (mod.rs:37-42), and of each migration `name`, `migration_from`,
`up_sql`, `down_sql` (migration.rs:22-34) for the backend of the connection.
Two migrations are equal if their names are (memmigrations.rs:61-65,
fsmigrations.rs:337-341). -/
structure Migs (M : Type) where
  get : String → Option M
  latest : Option M
  name : M → String
  from_ : M → Except MErr (Option String)
  up : M → Except MErr (Option String)
  down : M → Except MErr (Option String)

namespace Migs
variable {M : Type} (ms : Migs M)

/-- `match m.migration_from()? { None => None, Some(name) => self.get_migration(&name) }`,
mod.rs:50-53, 68-71, 110-112. -/
def prev (m : M) : Except MErr (Option M) :=
  match ms.from_ m with
  | .error e => .error e
  | .ok none => .ok none
  | .ok (some n) => .ok (ms.get n)

/-- The loop of `migrations_since`, mod.rs:48-60.  The loop of the code has no bound;
here it gives up after `fuel` rounds. -/
def sinceLoop (since : M) : Nat → Option M → List M → Except MErr (List M)
  | _, none, _ => .error .notInChain
  | 0, some _, _ => .error .outOfFuel
  | fuel + 1, some m, accum =>
    if ms.name m ≠ ms.name since then
      match ms.prev m with
      | .error e => .error e
      | .ok last => sinceLoop since fuel last (accum ++ [m])
    else .ok accum.reverse

/-- `migrations_since`, mod.rs:45-61. -/
def migrationsSince (fuel : Nat) (since : M) : Except MErr (List M) :=
  ms.sinceLoop since fuel ms.latest []

/-- The loop of `all_migrations`, mod.rs:67-73. -/
def allLoop : Nat → Option M → List M → Except MErr (List M)
  | _, none, accum => .ok accum.reverse
  | 0, some _, _ => .error .outOfFuel
  | fuel + 1, some m, accum =>
    match ms.prev m with
    | .error e => .error e
    | .ok last => allLoop fuel last (accum ++ [m])

/-- `all_migrations`, mod.rs:64-75. -/
def allMigrations (fuel : Nat) : Except MErr (List M) := ms.allLoop fuel ms.latest []

end Migs

/-! ### Applying -/

/-- The database: everything except the table `butane_migrations`, and the names in that
table, `none` if it does not exist. -/
structure MigDb (U : Type) where
  user : U
  log : Option (List String)

/-- How a call to the database ends: it may fail, or it may take effect and still be
reported as failed because the connection is lost. -/
inductive Outcome where
  | ok
  | fail
  | lost
deriving DecidableEq, Repr

/-- A connection.  `exec` is what a batch of SQL does (`ConnectionMethods::execute`).
`outcome n` is what becomes of the `n`th call; a process that stops at that point is a
call that fails, with nothing after it. -/
structure MigConn (U : Type) where
  exec : String → MigDb U → Except MErr (MigDb U)
  outcome : Nat → Outcome

/-- `mark_applied`, migration.rs:59-65: an insert into `butane_migrations`, whose primary
key is the name. -/
def markApplied {U : Type} (name : String) (db : MigDb U) : Except MErr (MigDb U) :=
  match db.log with
  | none => .error .db
  | some names => if name ∈ names then .error .db else .ok { db with log := some (names ++ [name]) }

/-- `delete_where` of `downgrade`, migration.rs:79-82. -/
def unmark {U : Type} (name : String) (db : MigDb U) : Except MErr (MigDb U) :=
  match db.log with
  | none => .error .db
  | some names => .ok { db with log := some (names.filter (· ≠ name)) }

/-- The shared shape of `apply`, migration.rs:43-52, and `downgrade`, migration.rs:71-84:
begin a transaction, execute the SQL, record it, commit.  The calls are numbered from
`n`.  An error before the end drops the transaction, which rolls it back (C45). -/
def runMig {U : Type} (c : MigConn U) (n : Nat) (sql : Except MErr (Option String))
    (record : MigDb U → Except MErr (MigDb U)) (db : MigDb U) : Except MErr Unit × MigDb U :=
  if c.outcome n ≠ .ok then (.error .db, db)
  else
    match sql with
    | .error e => (.error e, db)
    | .ok none => (.error .unknownBackend, db)
    | .ok (some sql) =>
      if c.outcome (n + 1) ≠ .ok then (.error .db, db)
      else
        match c.exec sql db with
        | .error e => (.error e, db)
        | .ok db1 =>
          if c.outcome (n + 2) ≠ .ok then (.error .db, db)
          else
            match record db1 with
            | .error e => (.error e, db)
            | .ok db2 =>
              match c.outcome (n + 3) with
              | .ok => (.ok (), db2)
              | .fail => (.error .db, db)
              | .lost => (.error .db, db2)

namespace Migs
variable {M U : Type} (ms : Migs M)

/-- `apply`, migration.rs:43-52. -/
def applyOne (c : MigConn U) (n : Nat) (m : M) (db : MigDb U) : Except MErr Unit × MigDb U :=
  runMig c n (ms.up m) (markApplied (ms.name m)) db

/-- `downgrade`, migration.rs:71-84. -/
def downgradeOne (c : MigConn U) (n : Nat) (m : M) (db : MigDb U) : Except MErr Unit × MigDb U :=
  runMig c n (ms.down m) (unmark (ms.name m)) db

/-- The loop of `last_applied_migration`, mod.rs:104-115. -/
def lastLoop (names : List String) : Nat → Option M → Except MErr (Option M)
  | _, none => .ok none
  | 0, some _ => .error .outOfFuel
  | fuel + 1, some m =>
    if ms.name m ∈ names then .ok (some m)
    else
      match ms.prev m with
      | .error e => .error e
      | .ok p => lastLoop names fuel p

/-- `last_applied_migration`, mod.rs:88-116.  The calls are `has_table` and `query`. -/
def lastApplied (fuel : Nat) (c : MigConn U) (db : MigDb U) : Except MErr (Option M) :=
  if c.outcome 0 ≠ .ok then .error .db
  else
    match db.log with
    | none => .ok none
    | some names =>
      if c.outcome 1 ≠ .ok then .error .db
      else ms.lastLoop names fuel ms.latest

/-- `unapplied_migrations`, mod.rs:78-83. -/
def unapplied (fuel : Nat) (c : MigConn U) (db : MigDb U) : Except MErr (List M) :=
  match ms.lastApplied fuel c db with
  | .error e => .error e
  | .ok none => ms.allMigrations fuel
  | .ok (some m) => ms.migrationsSince fuel m

/-- The loop of `migrate`, mod.rs:121-124. -/
def applyAll (c : MigConn U) : Nat → List M → MigDb U → Except MErr Unit × MigDb U
  | _, [], db => (.ok (), db)
  | n, m :: rest, db =>
    match ms.applyOne c n m db with
    | (.error e, db') => (.error e, db')
    | (.ok (), db') => applyAll c (n + 4) rest db'

/-- `migrate`, mod.rs:119-126. -/
def migrate (fuel : Nat) (c : MigConn U) (db : MigDb U) : Except MErr Unit × MigDb U :=
  match ms.unapplied fuel c db with
  | .error e => (.error e, db)
  | .ok l => ms.applyAll c 2 l db

/-- The loop of `unmigrate`, mod.rs:150-156: an unreadable predecessor ends it as if
there was none. -/
def undoLoop (c : MigConn U) : Nat → Nat → M → MigDb U → Except MErr Unit × MigDb U
  | 0, _, _, db => (.error .outOfFuel, db)
  | fuel + 1, n, m, db =>
    match ms.from_ m with
    | .ok (some name) =>
      match ms.get name with
      | none => (.error .notInChain, db)
      | some p =>
        match ms.downgradeOne c n p db with
        | (.error e, db') => (.error e, db')
        | (.ok (), db') => undoLoop c fuel (n + 4) p db'
    | _ => (.ok (), db)

/-- `unmigrate`, mod.rs:143-158. -/
def unmigrate (fuel : Nat) (c : MigConn U) (db : MigDb U) : Except MErr Unit × MigDb U :=
  match ms.lastApplied fuel c db with
  | .error e => (.error e, db)
  | .ok none => (.ok (), db)
  | .ok (some m) =>
    match ms.downgradeOne c 2 m db with
    | (.error e, db') => (.error e, db')
    | (.ok (), db') => ms.undoLoop c fuel 6 m db'

end Migs

end Butane
