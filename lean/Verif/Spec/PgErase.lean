/-
Deleting the objects that a filter describes, on PostgreSQL.
-/
import Verif.Spec.PgQuery

namespace Butane.Spec
open Butane Butane.PgData

/-- The filter, if there is one, describes the object. -/
def PgDescribes (k : PgConn) (m : TModel) (e : Option FOr) (o : ObjVals m.fields) : Prop :=
  ∀ f ∈ e, PgFilterMeans k m o f

/-- Of the objects `st`, those that the filter describes are gone and the others are left; `n` were
deleted. -/
def PgErased (k : PgConn) (m : TModel) (pk : TField) (e : Option FOr) (st st' : Objects m) (n : Nat) : Prop :=
  (∀ id o, PgHas pk st' id o ↔ PgHas pk st id o ∧ ¬ PgDescribes k m e o) ∧
  ∃ gone : List (SqlVal × ObjVals m.fields), gone.length = n ∧ (gone.map (·.1)).Nodup ∧
    ∀ id o, (id, o) ∈ gone ↔ PgHas pk st id o ∧ PgDescribes k m e o

/-- No row of any table refers to the table of the model. -/
def PgUnreferenced (m : TModel) (u : PDb) : Prop :=
  ∀ n s, u.lookup n = some s → ∀ fk ∈ s.fks, fk.table = m.table → ∀ r ∈ s.rows, r fk.col = .null

end Butane.Spec
