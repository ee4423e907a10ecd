/-
Making migrations and keeping them, in memory and on disk.
Models butane_core/src/migrations/mod.rs (trait `MigrationsMut`, `copy_migration`),
butane_core/src/migrations/memmigrations.rs and
butane_core/src/migrations/fsmigrations.rs.
-/
import Verif.Model.Migrations
import Verif.Model.Resolve

namespace Butane

/-- `resolve_types()?` of a schema, run until its loop ends (C06).  `json` is the cargo
feature. -/
def ADB.resolve (json : Bool) (db : ADB) : Except MErr ADB :=
  match db.resolveTypes json (rounds db) with
  | .ok db' => .ok db'
  | .cannotResolve _ _ => .error .types
  | .panic => .error .panic
  | .outOfFuel => .error .outOfFuel

/-- A step that may fail; what was changed before the failure stays changed. -/
abbrev Step (σ α : Type) := σ → Except MErr α × σ

/-- `for x in l { f(x)?; }` -/
def forSteps {α σ : Type} (f : α → Step σ Unit) : List α → Step σ Unit
  | [], s => (.ok (), s)
  | x :: rest, s =>
    match f x s with
    | (.error e, s') => (.error e, s')
    | (.ok (), s') => forSteps f rest s'

/-- A backend, as `create_migration_to` uses it: its name and `create_migration_sql`. -/
structure MigBackend where
  name : String
  sql : ADB → List Operation → Except MErr String

/-- What `create_migration_to` uses of a collection `S` of migrations `M`
(`MigrationsMut`, mod.rs:172-235, and `MigrationMut`, migration.rs:88-118).  The methods of
a migration may change the migration and the collection (files). -/
structure StoreOps (S M : Type) where
  name : M → String
  db : S → M → Except MErr ADB
  newMigration : S → String → M
  addModified : ATable → Step (S × M) Unit
  addUnmodified : ATable → String → Step (S × M) Unit
  addSql : String → String → String → Step (S × M) Unit
  setFrom : Option String → Step (S × M) Unit
  addMigration : M → Step S Unit

/-- The names collected from the operations, mod.rs:255-268. -/
def modifiedTable : Operation → Option String
  | .addTable t => some t.name
  | .addTableConstraints t => some t.name
  | .addTableIfNotExists t => some t.name
  | .addColumn t _ => some t
  | .removeColumn t _ => some t
  | .changeColumn t _ _ => some t
  | .removeTable _ => none
  | .removeTableConstraints _ => none

/-- `migrations_table`, mod.rs:300-314. -/
def migrationsTable : ATable :=
  (ATable.new "butane_migrations").addColumn
    ⟨"name", .knownId (.ty .text), false, true, false, false, none, none⟩

/-- `create_migration_to`, mod.rs:238-296. -/
def createMigrationTo {S M : Type} (ops : StoreOps S M) (backends : List MigBackend) (name : String)
    (from_ : Option M) (toDb : ADB) : Step S Bool := fun s =>
  let read : Except MErr ADB :=
    match from_ with
    | none => .ok ADB.new
    | some m => ops.db s m
  match read with
  | .error e => (.error e, s)
  | .ok fromDb =>
    let changes := diff fromDb toDb
    if changes.isEmpty then (.ok false, s)
    else
      let modified := changes.filterMap modifiedTable
      let changes : List Operation :=
        if from_.isNone then changes ++ [.addTableIfNotExists migrationsTable] else changes
      let m := ops.newMigration s name
      let addTable : ATable → Step (S × M) Unit := fun table =>
        if modified.contains table.name then ops.addModified table
        else
          match from_ with
          | none => fun s => (.error .noFrom, s)
          | some f => ops.addUnmodified table (ops.name f)
      match forSteps addTable toDb.tables.values (s, m) with
      | (.error e, s1) => (.error e, s1.1)
      | (.ok (), s1) =>
        let addBackend : MigBackend → Step (S × M) Unit := fun b s =>
          match b.sql fromDb changes with
          | .error e => (.error e, s)
          | .ok up =>
            match b.sql toDb (diff toDb fromDb) with
            | .error e => (.error e, s)
            | .ok down => ops.addSql b.name up down s
        match forSteps addBackend backends s1 with
        | (.error e, s2) => (.error e, s2.1)
        | (.ok (), s2) =>
          match ops.setFrom (from_.map ops.name) s2 with
          | (.error e, s3) => (.error e, s3.1)
          | (.ok (), s3) =>
            match ops.addMigration s3.2 s3.1 with
            | (.error e, s4) => (.error e, s4)
            | (.ok (), s4) => (.ok true, s4)

/-! ### In memory -/

/-- `MemMigration`, memmigrations.rs:12-19. -/
structure MemMigration where
  name : String
  db : ADB
  from_ : Option String
  up : SMap String String
  down : SMap String String

namespace MemMigration

/-- `MemMigration::new`, memmigrations.rs:22-30. -/
def new (name : String) : MemMigration := ⟨name, ADB.new, none, [], []⟩

/-- `db`, memmigrations.rs:34-38. -/
def getDb (json : Bool) (m : MemMigration) : Except MErr ADB := m.db.resolve json

/-- `resolve_types()?` in place after a change of the schema.  (The schema that is left
by a failed resolution is not modelled; it is left as it was after the change.) -/
def resolved (json : Bool) (m : MemMigration) : Except MErr Unit × MemMigration :=
  match m.db.resolve json with
  | .ok db => (.ok (), { m with db := db })
  | .error e => (.error e, m)

/-- `add_modified_table`, memmigrations.rs:69-73. -/
def addModifiedTable (json : Bool) (t : ATable) (m : MemMigration) : Except MErr Unit × MemMigration :=
  { m with db := m.db.replaceTable t }.resolved json

/-- `add_unmodified_table`, memmigrations.rs:74-77. -/
def addUnmodifiedTable (json : Bool) (t : ATable) (_fromName : String) (m : MemMigration) :
    Except MErr Unit × MemMigration :=
  m.addModifiedTable json t

/-- `delete_table`, memmigrations.rs:78-81. -/
def deleteTable (t : String) (m : MemMigration) : MemMigration := { m with db := m.db.removeTable t }

/-- `add_sql`, memmigrations.rs:82-87. -/
def addSql (backend up down : String) (m : MemMigration) : MemMigration :=
  { m with up := m.up.insert backend up, down := m.down.insert backend down }

/-- `remove_sql`, memmigrations.rs:88-92. -/
def removeSql (backend : String) (m : MemMigration) : MemMigration :=
  { m with up := m.up.erase backend, down := m.down.erase backend }

/-- `add_type`, memmigrations.rs:93-97. -/
def addType (json : Bool) (k : TypeKey) (t : DeferredSqlType) (m : MemMigration) :
    Except MErr Unit × MemMigration :=
  { m with db := m.db.addType k t }.resolved json

/-- `set_migration_from`, memmigrations.rs:98-101. -/
def setFrom (prev : Option String) (m : MemMigration) : MemMigration := { m with from_ := prev }

end MemMigration

/-- `MemMigrations`, memmigrations.rs:106-110. -/
structure MemMigrations where
  migrations : SMap String MemMigration
  current : MemMigration
  latest : Option String

namespace MemMigrations

/-- `MemMigrations::new`, memmigrations.rs:113-119. -/
def new : MemMigrations := ⟨[], .new "current", none⟩

/-- `get_migration`, memmigrations.rs:131-133. -/
def get (s : MemMigrations) (name : String) : Option MemMigration := s.migrations.lookup name

/-- `latest`, memmigrations.rs:134-139. -/
def getLatest (s : MemMigrations) : Option MemMigration :=
  match s.latest with
  | none => none
  | some name => s.get name

/-- `add_migration`, memmigrations.rs:155-169. -/
def addMigration (m : MemMigration) (s : MemMigrations) : MemMigrations :=
  let newLatest :=
    match s.latest with
    | none => true
    | some latestName =>
      match m.from_ with
      | none => false
      | some name => name == latestName
  { s with latest := if newLatest then some m.name else s.latest,
           migrations := s.migrations.insert m.name m }

/-- `delete_migrations`, memmigrations.rs:171-175. -/
def deleteMigrations (s : MemMigrations) : MemMigrations := { s with migrations := [], latest := none }

/-- `clear_current`, memmigrations.rs:147-150. -/
def clearCurrent (s : MemMigrations) : MemMigrations := { s with current := .new "current" }

/-- The collection as `Migrations` sees it, for one backend. -/
def toMigs (backend : String) (s : MemMigrations) : Migs MemMigration :=
  ⟨s.get, s.getLatest, (·.name), fun m => .ok m.from_, fun m => .ok (m.up.lookup backend),
    fun m => .ok (m.down.lookup backend)⟩

/-- The operations for `create_migration_to`. -/
def ops (json : Bool) : StoreOps MemMigrations MemMigration where
  name := (·.name)
  db _ m := m.getDb json
  newMigration _ name := .new name
  addModified t p := ((p.2.addModifiedTable json t).1, p.1, (p.2.addModifiedTable json t).2)
  addUnmodified t n p := ((p.2.addUnmodifiedTable json t n).1, p.1, (p.2.addUnmodifiedTable json t n).2)
  addSql b up down p := (.ok (), p.1, p.2.addSql b up down)
  setFrom prev p := (.ok (), p.1, p.2.setFrom prev)
  addMigration m s := (.ok (), s.addMigration m)

end MemMigrations

/-! ### On disk -/

/-- `MigrationInfo`, fsmigrations.rs:20-32. -/
structure FsInfo where
  fromName : Option String
  tableBases : SMap String String
  backends : List String

/-- `MigrationInfo::new`, fsmigrations.rs:34-40. -/
def FsInfo.new : FsInfo := ⟨none, [], []⟩

/-- The directory of a migration: `info.json`, the files `<table>.table`, `types.json` and
the files `<backend>_up.sql`, `<backend>_down.sql`, by their names without extension.
Contents are the values themselves: that JSON text is read back as what was written is
assumed (for type keys it is C08).  Locks are not modelled. -/
structure FsDir where
  info : Option FsInfo
  tables : SMap String ATable
  types : Option (SMap TypeKey DeferredSqlType)
  sql : SMap String String

def FsDir.empty : FsDir := ⟨none, [], none, []⟩

/-- The directory of all migrations; `latest` is the content of `state.json`
(fsmigrations.rs:44-52, 360-372).  A migration is the name of its directory. -/
structure FsMigrations where
  dirs : SMap String FsDir
  latest : Option String

/-- `write_contents`, fsmigrations.rs:114-127, of text: a final newline is added if there
is none; an empty text panics (`contents[contents.len() - 1]`). -/
def withNewline (text : String) : Except MErr String :=
  match text.toList.getLast? with
  | none => .error .panic
  | some c => .ok (if c = '\n' then text else text ++ "\n")

namespace FsMigrations

/-- The files of a directory, none if it does not exist. -/
def dir (s : FsMigrations) (n : String) : FsDir :=
  match s.dirs.lookup n with
  | some d => d
  | none => .empty

/-- Write to a directory, which is made if necessary (`ensure_dir`, fsmigrations.rs:129-131). -/
def write (n : String) (f : FsDir → FsDir) (s : FsMigrations) : FsMigrations :=
  { s with dirs := s.dirs.insert n (f (s.dir n)) }

/-- `info`, fsmigrations.rs:133-140. -/
def info (s : FsMigrations) (n : String) : FsInfo :=
  match (s.dir n).info with
  | some i => i
  | none => .new

/-- `write_info`, fsmigrations.rs:79-83. -/
def writeInfo (n : String) (i : FsInfo) (s : FsMigrations) : FsMigrations :=
  s.write n fun d => { d with info := some i }

/-- `get_migration`, fsmigrations.rs:429-440. -/
def get (s : FsMigrations) (n : String) : Option String :=
  match s.dirs.lookup n with
  | some _ => some n
  | none => none

/-- `latest`, fsmigrations.rs:442-447. -/
def getLatest (s : FsMigrations) : Option String :=
  match s.latest with
  | none => none
  | some n => s.get n

/-- The collection as `Migrations` sees it, for one backend: `read_sql`,
fsmigrations.rs:93-101; `migration_from`, fsmigrations.rs:315-317. -/
def toMigs (backend : String) (s : FsMigrations) : Migs String :=
  ⟨s.get, s.getLatest, id, fun n => .ok (s.info n).fromName,
    fun n => .ok ((s.dir n).sql.lookup (backend ++ "_up")),
    fun n => .ok ((s.dir n).sql.lookup (backend ++ "_down"))⟩

/-- `add_modified_table`, fsmigrations.rs:180-185. -/
def addModifiedTable (t : ATable) (n : String) (s : FsMigrations) : FsMigrations :=
  s.write n fun d => { d with tables := d.tables.insert t.name t }

/-- `add_unmodified_table`, fsmigrations.rs:187-212.  The loop of `all_migrations` gets
one round more than there are directories, which is enough unless it is in a cycle. -/
def addUnmodifiedTable (t : ATable) (fromName n : String) (s : FsMigrations) :
    Except MErr Unit × FsMigrations :=
  match (s.toMigs "").allMigrations (s.dirs.length + 1) with
  | .error e => (.error e, s)
  | .ok list =>
    match list.find? (fun m => m == fromName) with
    | none => (.error .notFound, s)
    | some m =>
      let base :=
        match (s.info m).tableBases.lookup t.name with
        | some base => base
        | none => fromName
      let info := s.info n
      (.ok (), s.writeInfo n { info with tableBases := info.tableBases.insert t.name base })

/-- `delete_table`, fsmigrations.rs:214-220. -/
def deleteTable (t n : String) (s : FsMigrations) : Except MErr Unit × FsMigrations :=
  match (s.dir n).tables.lookup t with
  | none => (.error .read, s.write n id)
  | some _ => (.ok (), s.write n fun d => { d with tables := d.tables.erase t })

/-- `add_sql`, fsmigrations.rs:222-232. -/
def addSql (backend up down n : String) (s : FsMigrations) : Except MErr Unit × FsMigrations :=
  match withNewline up with
  | .error e => (.error e, s.write n id)
  | .ok up =>
    let s := s.write n fun d => { d with sql := d.sql.insert (backend ++ "_up") up }
    match withNewline down with
    | .error e => (.error e, s)
    | .ok down =>
      let s := s.write n fun d => { d with sql := d.sql.insert (backend ++ "_down") down }
      let info := s.info n
      if info.backends.contains backend then (.ok (), s)
      else (.ok (), s.writeInfo n { info with backends := info.backends ++ [backend] })

/-- `remove_sql`, fsmigrations.rs:234-241: deleting a file that is not there fails. -/
def removeSql (backend n : String) (s : FsMigrations) : Except MErr Unit × FsMigrations :=
  match (s.dir n).sql.lookup (backend ++ "_up") with
  | none => (.error .read, s.write n id)
  | some _ =>
    let s := s.write n fun d => { d with sql := d.sql.erase (backend ++ "_up") }
    match (s.dir n).sql.lookup (backend ++ "_down") with
    | none => (.error .read, s)
    | some _ =>
      let s := s.write n fun d => { d with sql := d.sql.erase (backend ++ "_down") }
      let info := s.info n
      (.ok (), s.writeInfo n { info with backends := info.backends.filter (· ≠ backend) })

/-- `add_type`, fsmigrations.rs:243-263. -/
def addType (k : TypeKey) (t : DeferredSqlType) (n : String) (s : FsMigrations) : FsMigrations :=
  s.write n fun d =>
    { d with types := some ((match d.types with | some types => types | none => []).insert k t) }

/-- `set_migration_from`, fsmigrations.rs:266-270. -/
def setFrom (prev : Option String) (n : String) (s : FsMigrations) : FsMigrations :=
  s.writeInfo n { s.info n with fromName := prev }

/-- The tables recorded by pointing to another migration, fsmigrations.rs:277-290. -/
def readBases (s : FsMigrations) : List (String × String) → ADB → Except MErr ADB
  | [], db => .ok db
  | (table, base) :: rest, db =>
    match (s.dir base).tables.lookup table with
    | none => .error .read
    | some t => readBases s rest (db.replaceTable t)

/-- `db`, fsmigrations.rs:274-313.  The files of a directory are listed in any order; here
in the order of their names. -/
def getDb (json : Bool) (s : FsMigrations) (n : String) : Except MErr ADB :=
  match s.readBases (s.info n).tableBases ADB.new with
  | .error e => .error e
  | .ok db =>
    let db := (s.dir n).tables.values.foldl ADB.replaceTable db
    let types : SMap TypeKey DeferredSqlType :=
      match (s.dir n).types with
      | none => []
      | some types => types
    (types.foldl (fun (db : ADB) e => db.addType e.1 e.2) db).resolve json

/-- `add_migration`, fsmigrations.rs:467-476. -/
def addMigration (n : String) (s : FsMigrations) : FsMigrations :=
  if s.latest = none ∨ s.latest = (s.info n).fromName then { s with latest := some n } else s

/-- `delete_migrations`, fsmigrations.rs:478-495. -/
def deleteMigrations (s : FsMigrations) : FsMigrations :=
  { dirs := s.dirs.filter fun e => e.1 == "current", latest := none }

/-- `detach_latest_migration`, fsmigrations.rs:390-405. -/
def detachLatest (s : FsMigrations) : Except MErr Unit × FsMigrations :=
  match s.getLatest with
  | none => (.error .notFound, s)
  | some n =>
    match (s.info n).fromName with
    | none => (.error .noFrom, s)
    | some p => (.ok (), { s with latest := some p })

/-- The operations for `create_migration_to`. -/
def ops (json : Bool) : StoreOps FsMigrations String where
  name := id
  db s n := s.getDb json n
  newMigration _ name := name
  addModified t p := (.ok (), p.1.addModifiedTable t p.2, p.2)
  addUnmodified t fromName p :=
    ((p.1.addUnmodifiedTable t fromName p.2).1, (p.1.addUnmodifiedTable t fromName p.2).2, p.2)
  addSql b up down p := ((p.1.addSql b up down p.2).1, (p.1.addSql b up down p.2).2, p.2)
  setFrom prev p := (.ok (), p.1.setFrom prev p.2, p.2)
  addMigration n s := (.ok (), s.addMigration n)

end FsMigrations

/-! ### Copying -/

/-- What `copy_migration` reads of a migration. -/
structure MigSource where
  from_ : Except MErr (Option String)
  db : Except MErr ADB
  backends : Except MErr (List String)
  up : String → Except MErr (Option String)
  down : String → Except MErr (Option String)

/-- A migration in memory: `sql_backends` are the keys of `up`, memmigrations.rs:57-59. -/
def MemMigration.source (json : Bool) (m : MemMigration) : MigSource :=
  ⟨.ok m.from_, m.getDb json, .ok m.up.keys, fun b => .ok (m.up.lookup b), fun b => .ok (m.down.lookup b)⟩

/-- A migration on disk: `sql_backends`, fsmigrations.rs:331-333. -/
def FsMigrations.source (json : Bool) (s : FsMigrations) (n : String) : MigSource :=
  ⟨.ok (s.info n).fromName, s.getDb json n, .ok (s.info n).backends,
    fun b => .ok ((s.dir n).sql.lookup (b ++ "_up")), fun b => .ok ((s.dir n).sql.lookup (b ++ "_down"))⟩

/-- `copy_migration`, mod.rs:326-343, to a migration in memory (the only use, in
butane_cli's `embed`). -/
def copyMigration (json : Bool) (src : MigSource) (to_ : MemMigration) : Except MErr Unit × MemMigration :=
  match src.from_ with
  | .error e => (.error e, to_)
  | .ok prev =>
    let to_ := to_.setFrom prev
    match src.db with
    | .error e => (.error e, to_)
    | .ok db =>
      match forSteps (fun t m => m.addModifiedTable json t) db.tables.values to_ with
      | (.error e, m) => (.error e, m)
      | (.ok (), m) =>
        match forSteps (fun (e : TypeKey × DeferredSqlType) m => m.addType json e.1 e.2) db.extraTypes m with
        | (.error e, m) => (.error e, m)
        | (.ok (), m) =>
          match src.backends with
          | .error e => (.error e, m)
          | .ok backends =>
            forSteps (fun b (m : MemMigration) =>
              match src.up b, src.down b with
              | .error e, _ => (.error e, m)
              | .ok _, .error e => (.error e, m)
              | .ok (some up), .ok (some down) => (.ok (), m.addSql b up down)
              | .ok _, .ok _ => (.ok (), m)) backends m

/-- The loop of `embed`, butane_cli/src/lib.rs:367-371. -/
def embedLoop (json : Bool) (s : FsMigrations) : List String → MemMigrations → Except MErr MemMigrations
  | [], mem => .ok mem
  | n :: rest, mem =>
    match copyMigration json (s.source json n) (.new n) with
    | (.error e, _) => .error e
    | (.ok (), m) => embedLoop json s rest (mem.addMigration m)

/-- `embed`, butane_cli/src/lib.rs:364-371: the migrations that are written, as JSON, into
the source of the program. -/
def FsMigrations.embed (json : Bool) (s : FsMigrations) : Except MErr MemMigrations :=
  match (s.toMigs "").allMigrations (s.dirs.length + 1) with
  | .error e => .error e
  | .ok list => embedLoop json s list .new

end Butane
