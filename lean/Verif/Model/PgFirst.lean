/-
`load_first` with typed fields, on the PostgreSQL backend.
Models butane_core/src/query/mod.rs and butane_core/src/db/pg.rs.
-/
import Verif.Model.PgObj

namespace Butane
open Butane.PgData

/-- The possible results of `load_first` of a query on this model, query/mod.rs:278-283 with
db/pg.rs:176-230: the limit is 1, `check_columns` (536-546) counts the columns of every row, and only the
first row is read (`.mapped(T::from_row).nth(0)`). -/
def TModel.PgLoadFirstOut (m : TModel) (k : PgConn) (db : PDb) (q : Query)
    (res : Except OpErr (Option (ObjVals m.fields))) : Prop :=
  match (pgSendAll (q.loadFirst .pg k.kw m.columns).params).orErr with
  | .error e => res = .error e
  | .ok ps => ∃ out, QueryRows k.server k.reserved db (q.loadFirst .pg k.kw m.columns).text
      ((q.loadFirst .pg k.kw m.columns).params.map pgTypeForVal) ps out ∧
    res = match out with
      | none => .error .db
      | some rows =>
        if rows.all fun r => r.length == m.columns.length then
          match m.pgFromRows k (rows.take 1) with
          | .ok os => .ok os.head?
          | .error e => .error e
        else .error .db

end Butane
