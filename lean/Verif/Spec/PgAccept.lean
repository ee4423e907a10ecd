/-
Which objects a PostgreSQL database accepts.
-/
import Verif.Spec.PgObj

namespace Butane.Spec
open Butane Butane.PgData

/-- Writing the object puts `w` into the column. -/
def PgWrites (m : TModel) (o : ObjVals m.fields) (d : Column) (w : PgVal) : Prop :=
  ∃ v, keySql d.name m.fields o = .ok v ∧ toPg d.type v = .ok w

/-- The row has the key of the object. -/
def IsPgRowOf (m : TModel) (pk : TField) (t : Table) (o : ObjVals m.fields) (r : PRow) : Prop :=
  ∃ d ∈ t.cols, d.name = pk.name ∧ PgWrites m o d (r pk.name)

/-- Every column of the table is for a field. -/
def OnlyFields (m : TModel) (t : Table) : Prop :=
  ∀ d ∈ t.cols, ∃ f ∈ m.fields, f.name = d.name ∧ f.ty ≠ none

/-- PostgreSQL takes one of the values for the other. -/
def PgEqual (S : Server) (a b : PgVal) : Prop := same S a b = true ∨ same S b a = true

/-- The database accepts the object: if it has no key, the number the sequence gives is one of the type of
the column and not yet used; its values can be stored; no other object of the model has an equal value in
a unique column; and the objects it refers to are there (or it refers to itself). -/
structure PgAccepts (k : PgConn) (m : TModel) (pk : TField) (u : PDb) (t : Table) (key : Int64)
    (o : ObjVals m.fields) : Prop where
  number : keyValid pk.name m.fields o = false → ∀ d ∈ t.cols, d.name = pk.name →
    ∃ p, number key d.type = some p ∧ k.server.refuses p = false ∧ ∀ r ∈ t.rows, r pk.name ≠ p
  stored : ∀ d ∈ t.cols, ∀ w, PgWrites m o d w → k.server.refuses w = false
  unique : ∀ d ∈ t.cols, d.unique = true → ∀ w, PgWrites m o d w →
    ∀ r ∈ t.rows, PgEqual k.server (r d.name) w → IsPgRowOf m pk t o r
  refs : ∀ fk ∈ t.fks, ∃ d ∈ t.cols, d.name = fk.col ∧ ∀ w, PgWrites m o d w → w ≠ .null →
    (∃ p, u.lookup fk.table = some p ∧ ∃ s ∈ p.rows, same k.server (s fk.refCol) w = true) ∨
    (fk.table = m.table ∧ fk.refCol = pk.name ∧
      ∃ dk ∈ t.cols, dk.name = pk.name ∧ ∃ a, PgWrites m o dk a ∧ same k.server a w = true)

/-- Foreign keys to the model's table refer to its key, and an automatic key is not a foreign key. -/
structure PgKeyRefs (m : TModel) (pk : TField) (u : PDb) : Prop where
  refer : ∀ n s, u.lookup n = some s → ∀ fk ∈ s.fks, fk.table = m.table → fk.refCol = pk.name
  auto : pk.isAuto = true → ∀ t, u.lookup m.table = some t → ∀ fk ∈ t.fks, fk.col ≠ pk.name

/-- No other row refers to the object. -/
def PgUnused (k : PgConn) (m : TModel) (pk : TField) (u : PDb) (t : Table) (o : ObjVals m.fields) : Prop :=
  ∀ n s, u.lookup n = some s → ∀ fk ∈ s.fks, fk.table = m.table → ∀ r ∈ s.rows,
    n = m.table ∧ IsPgRowOf m pk t o r ∨
    ∀ r' ∈ t.rows, IsPgRowOf m pk t o r' → same k.server (r' pk.name) (r fk.col) = false

end Butane.Spec
