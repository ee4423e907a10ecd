/-
Which foreign keys exist while the operations of a migration run on PostgreSQL.
-/
import Verif.Spec.Schema

namespace Butane.Spec
open Butane

/-- The table without its foreign keys. -/
def withoutRefs (t : ATable) : ATable :=
  { t with columns := t.columns.map fun c => { c with reference := none } }

/-- The schema a database has after an operation, with a reference in a column where there is a
foreign key: a table is created without foreign keys and gets them with `AddTableConstraints`,
and loses them with `RemoveTableConstraints`. -/
def liveStep (db : ADB) : Operation → ADB
  | .addTable t => { db with tables := db.tables.insert t.name (withoutRefs t) }
  | .addTableIfNotExists t => { db with tables := db.tables.insert t.name (withoutRefs t) }
  | .addTableConstraints t => { db with tables := db.tables.modify t.name fun _ => t }
  | .removeTableConstraints t => { db with tables := db.tables.modify t.name withoutRefs }
  | .removeTable n => db.removeTable n
  | .addColumn tbl c => { db with tables := db.tables.modify tbl (·.addColumn c) }
  | .removeColumn tbl c => { db with tables := db.tables.modify tbl (·.removeColumn c) }
  | .changeColumn tbl _ c => { db with tables := db.tables.modify tbl (·.replaceColumn c) }

/-- The schema after several operations. -/
def liveAll (db : ADB) (ops : List Operation) : ADB := ops.foldl liveStep db

/-- A foreign key of another table refers to the table. -/
def ReferredTo (db : ADB) (n : String) : Prop :=
  ∃ m t c k, m ≠ n ∧ db.getTable m = some t ∧ c ∈ t.columns ∧ c.reference = some (.literal n k)

/-- All references are to tables of the schema. -/
def NoDangling (db : ADB) : Prop :=
  ∀ m t c n k, db.getTable m = some t → c ∈ t.columns → c.reference = some (.literal n k) →
    ∃ u, db.getTable n = some u

end Butane.Spec
