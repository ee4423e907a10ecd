/-
What the chain of migrations is, and what applying and undoing migrations means.
-/
import Verif.Model.Migrations

namespace Butane.Spec
variable {M U : Type}

/-- Migrations are found by their names. -/
structure Keyed (ms : Migs M) : Prop where
  name : ∀ n m, ms.get n = some m → ms.name m = n
  latest : ∀ m, ms.latest = some m → ms.get (ms.name m) = some m

/-- `l`, oldest first, is what one finds by following the links to the predecessor from
the latest migration: it ends with the latest, every other one is the predecessor of the
next, and the first one has no predecessor in the collection. -/
structure IsPath (ms : Migs M) (l : List M) : Prop where
  latest : l.getLast? = ms.latest
  link : ∀ p m, [p, m] <:+: l → ∃ n, ms.from_ m = .ok (some n) ∧ ms.get n = some p
  first : ∀ m, l.head? = some m →
    ms.from_ m = .ok none ∨ ∃ n, ms.from_ m = .ok (some n) ∧ ms.get n = none

/-- A path that is not cut short by a missing predecessor. -/
def Complete (ms : Migs M) (l : List M) : Prop :=
  ∀ m, l.head? = some m → ms.from_ m = .ok none

/-- The migration is recorded as applied. -/
def Recorded (db : MigDb U) (name : String) : Prop := ∃ names, db.log = some names ∧ name ∈ names

/-- One migration was applied completely: its SQL was executed and it was recorded. -/
def AppliedOne (ms : Migs M) (exec : String → MigDb U → Except MErr (MigDb U)) (m : M)
    (db db' : MigDb U) : Prop :=
  ∃ sql db1 names, ms.up m = .ok (some sql) ∧ exec sql db = .ok db1 ∧ db1.log = some names ∧
    ms.name m ∉ names ∧ db' = ⟨db1.user, some (names ++ [ms.name m])⟩

/-- The migrations were applied completely, in this order, and nothing else was done. -/
inductive Applied (ms : Migs M) (exec : String → MigDb U → Except MErr (MigDb U)) :
    List M → MigDb U → MigDb U → Prop
  | nil {db} : Applied ms exec [] db db
  | cons {m l db db1 db2} : AppliedOne ms exec m db db1 → Applied ms exec l db1 db2 →
      Applied ms exec (m :: l) db db2

/-- One migration was undone completely: its SQL was executed and its record removed. -/
def UndoneOne (ms : Migs M) (exec : String → MigDb U → Except MErr (MigDb U)) (m : M)
    (db db' : MigDb U) : Prop :=
  ∃ sql db1 names, ms.down m = .ok (some sql) ∧ exec sql db = .ok db1 ∧ db1.log = some names ∧
    db' = ⟨db1.user, some (names.filter (· ≠ ms.name m))⟩

inductive Undone (ms : Migs M) (exec : String → MigDb U → Except MErr (MigDb U)) :
    List M → MigDb U → MigDb U → Prop
  | nil {db} : Undone ms exec [] db db
  | cons {m l db db1 db2} : UndoneOne ms exec m db db1 → Undone ms exec l db1 db2 →
      Undone ms exec (m :: l) db db2

/-- The SQL of the migrations does not touch the records (it may create their table). -/
def KeepsRecords (ms : Migs M) (exec : String → MigDb U → Except MErr (MigDb U)) (l : List M) : Prop :=
  ∀ m ∈ l, ∀ sql, ms.up m = .ok (some sql) ∨ ms.down m = .ok (some sql) →
    ∀ db db1, exec sql db = .ok db1 → ∀ n, Recorded db1 n ↔ Recorded db n

/-- The SQL of the migrations does what it should: `Is o u` says that `u` has the schema
of the migration `o`, or of the empty database.  (C01, C37 and C38 are about this.) -/
structure Correct (ms : Migs M) (exec : String → MigDb U → Except MErr (MigDb U))
    (Is : Option M → U → Prop) (l : List M) : Prop where
  up : ∀ a m b, l = a ++ m :: b → ∀ sql db db1, ms.up m = .ok (some sql) → Is a.getLast? db.user →
    exec sql db = .ok db1 → Is (some m) db1.user
  down : ∀ a m b, l = a ++ m :: b → ∀ sql db db1, ms.down m = .ok (some sql) → Is (some m) db.user →
    exec sql db = .ok db1 → Is a.getLast? db1.user

/-- The first `k` migrations of the chain are applied: these are recorded, the others are
not, and the schema is that of the last of them. -/
structure At (ms : Migs M) (Is : Option M → U → Prop) (l : List M) (k : Nat) (db : MigDb U) : Prop where
  le : k ≤ l.length
  recorded : ∀ m ∈ l.take k, Recorded db (ms.name m)
  others : ∀ m ∈ l.drop k, ¬ Recorded db (ms.name m)
  schema : Is (l.take k).getLast? db.user

end Butane.Spec
