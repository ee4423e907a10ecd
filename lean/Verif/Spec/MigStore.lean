/-
What a collection of migrations is like after a history of creations.
-/
import Verif.Model.MigStore
import Verif.Spec.Migrations
import Verif.Spec.Types

namespace Butane.Spec
variable {S M : Type}

/-- A schema as `create_migration` finds it: well formed, with concrete types and
references, and a primary key in each table that is not a link table. -/
structure Settled (db : ADB) : Prop where
  valid : ValidSchema db
  pk : ∀ e ∈ db.tables, (∃ c ∈ e.2.columns, c.pk = true) ∨ ∃ p, e.2.name = p ++ "_Many"
  types : ∀ e ∈ db.tables, ∀ c ∈ e.2.columns, ∃ ty, denotes c.sqltype = .inl ty
  refs : ∀ e ∈ db.tables, ∀ c ∈ e.2.columns, ∀ d, c.reference ≠ some (.deferred d)

/-- The migrations that were made, oldest first, by name and schema, are the chain: the
first has no predecessor, each other one has the one before it, the last one is the
latest; and each is read back with the schema it was made with. -/
def Chain (ms : Migs M) (db : M → Except MErr ADB) (made : List (String × ADB)) : Prop :=
  ∃ l, IsPath ms l ∧ Complete ms l ∧
    AllMatch (fun m e => ms.name m = e.1 ∧ ∃ d, db m = .ok d ∧ SameSchema d e.2) l made

/-- The text of a file is the text that was written, with a final newline. -/
def FileText (text file : String) : Prop :=
  (text.toList.getLast? = some '\n' ∧ file = text) ∨
  (∃ c, text.toList.getLast? = some c ∧ c ≠ '\n' ∧ file = text ++ "\n")

/-- The histories of a collection: migrations are created from the latest, with new names
and for any schema; a creation may fail or find nothing to do; and what does not belong to
a migration may be changed in between (`edit`).  The list is of the migrations made. -/
inductive Made (ops : StoreOps S M) (backends : List MigBackend) (latest : S → Option M)
    (fresh : S → String → Prop) (edit : S → S → Prop) (empty : S) : S → List (String × ADB) → Prop
  | empty : Made ops backends latest fresh edit empty empty []
  | edit {s s' made} : Made ops backends latest fresh edit empty s made → edit s s' →
      Made ops backends latest fresh edit empty s' made
  | create {s s' made name toDb} : Made ops backends latest fresh edit empty s made → fresh s name →
      Settled toDb → createMigrationTo ops backends name (latest s) toDb s = (.ok true, s') →
      Made ops backends latest fresh edit empty s' (made ++ [(name, toDb)])
  | other {s s' made name toDb r} : Made ops backends latest fresh edit empty s made → fresh s name →
      createMigrationTo ops backends name (latest s) toDb s = (r, s') → r ≠ .ok true →
      Made ops backends latest fresh edit empty s' made

/-- Histories of migrations in memory.  The name must not be in use. -/
def MemMade (json : Bool) (backends : List MigBackend) : MemMigrations → List (String × ADB) → Prop :=
  Made (MemMigrations.ops json) backends MemMigrations.getLatest (fun s n => s.get n = none)
    (fun s s' => s'.migrations = s.migrations ∧ s'.latest = s.latest) MemMigrations.new

/-- Histories of migrations on disk.  There must not be a directory of that name, and
`current` is not a name: its directory is where the schema of the code is collected, which
changes in between. -/
def FsMade (json : Bool) (backends : List MigBackend) : FsMigrations → List (String × ADB) → Prop :=
  Made (FsMigrations.ops json) backends FsMigrations.getLatest
    (fun s n => s.dirs.lookup n = none ∧ n ≠ "current")
    (fun s s' => s'.latest = s.latest ∧ ∀ n, n ≠ "current" → s'.dirs.lookup n = s.dirs.lookup n)
    ⟨[], none⟩

end Butane.Spec
