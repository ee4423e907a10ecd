/-
`Query::delete` on the PostgreSQL backend.
Models butane_core/src/query/mod.rs and butane_core/src/db/pg.rs.
-/
import Verif.Model.PgObj

namespace Butane
open Butane.PgData

/-- The number of rows of a table. -/
def pgRowCount (db : PDb) (n : String) : Nat :=
  match db.lookup n with
  | some t => t.rows.length
  | none => 0

/-- `QueryOps::delete`, query/mod.rs:291-294, with `delete_where`, db/pg.rs:327-346: the database
afterwards, and the number PostgreSQL reports, which is that of the rows deleted. -/
def PgConn.deleteQuery (k : PgConn) (db : PDb) (q : Query) : Except OpErr (PDb × Nat) :=
  match k.exec db 0 (q.delete .pg k.kw) with
  | .ok (db', _) => .ok (db', pgRowCount db q.table - pgRowCount db' q.table)
  | .error e => .error e

end Butane
