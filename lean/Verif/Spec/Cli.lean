/-
What the directory of migrations goes through when it is worked on with the command line
tool.
-/
import Verif.Model.Cli
import Verif.Spec.MigStore

namespace Butane.Spec
open Cli

/-- The migrations on disk, oldest first, are those named, with these schemas. -/
def HasMigrations (json : Bool) (s : FsMigrations) (made : List (String × ADB)) : Prop :=
  Chain (s.toMigs "") (s.getDb json) made

/-- What there is for a backend in a migration: the SQL to apply and to undo it, and whether
the backend is listed. -/
def SqlIs (s : FsMigrations) (backend name : String) (up down : Option String) (listed : Prop) : Prop :=
  (s.toMigs backend).up name = .ok up ∧ (s.toMigs backend).down name = .ok down ∧
    (backend ∈ (s.info name).backends ↔ listed)

/-- What the SQL for a backend in a migration was generated from. -/
def SqlFrom (s : FsMigrations) (b : MigBackend) (name : String) (old new : ADB) (changes : List Operation) : Prop :=
  ∃ up down up' down', b.sql old changes = .ok up ∧ b.sql new (diff new old) = .ok down ∧
    FileText up up' ∧ FileText down down' ∧ SqlIs s b.name name (some up') (some down') True

/-- The schema of the latest migration as it is read, and the empty one if there is none. -/
def LatestSchema (json : Bool) (s : FsMigrations) (old : ADB) : Prop :=
  match s.getLatest with
  | none => old = ADB.new
  | some n => s.getDb json n = .ok old

/-- `get` finds the backends by their names. -/
def Finds (get : String → Option MigBackend) : Prop := ∀ n b, get n = some b → b.name = n

/-- The directories of migrations that can be met: it starts empty; building the code
changes `current`; and the commands of the tool are used, with any databases and any version
of the tool (backends that it knows, and SQL that they generate).  Each command may fail at any
point.  A new migration has a name that no directory has (it starts with the time), and the
schema of the code is well formed, with concrete types (this is C06) and references. -/
inductive Reach (json : Bool) : FsMigrations → Prop
  | empty : Reach json ⟨[], none⟩
  | build {s s'} : Reach json s → s'.latest = s.latest →
      (∀ n, n ≠ "current" → s'.dirs.lookup n = s.dirs.lookup n) → Reach json s'
  | make {s s' get spec name r} : Reach json s → Finds get → s.dirs.lookup name = none → name ≠ "current" →
      (∀ toDb, s.getDb json "current" = .ok toDb → Settled toDb) →
      makeMigration json get spec name s = (r, s') → Reach json s'
  | detach {s s'} {U : Type} {conn : Option (Except MErr (MigConn U))} {db : MigDb U} {r} :
      Reach json s → detachLatest conn db s = (r, s') → Reach json s'
  | collapse {s s' get} {U : Type} {conn : Except CliErr (MigConn U)} {db db' : MigDb U} {name r} :
      Reach json s → Finds get → name ≠ "current" → collapse json get conn name db s = (r, db', s') → Reach json s'
  | addBackend {s s' get name r} : Reach json s → Finds get → addBackend json get name s = (r, s') → Reach json s'
  | removeBackend {s s' get name r} : Reach json s → Finds get → removeBackend get name s = (r, s') → Reach json s'
  | regenerate {s s' get r} : Reach json s → Finds get → regenerate json get s = (r, s') → Reach json s'

end Butane.Spec
