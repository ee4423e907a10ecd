/-
The operations on objects with typed fields, on the PostgreSQL backend.
Models butane_core/src/lib.rs (DataObjectOps), butane_core/src/codegen/dbobj.rs and
butane_core/src/db/pg.rs, with the conversions of Model/Convert.lean and Model/ObjRow.lean and the
statement texts of Model/Statements.lean.

The database is the environment: `execData` and `QueryRows` of Spec/PgData.lean execute a statement.
-/
import Verif.Model.SqliteObj
import Verif.Spec.PgData

namespace Butane
open Butane.PgData

/-- A connection to a PostgreSQL database and the libraries it uses: PostgreSQL's treatment of values,
butane's list of keywords and PostgreSQL's, and `Uuid::parse_str`. -/
structure PgConn where
  server : Server
  kw : String → Bool
  reserved : String → Bool
  parseUuid : String → Option (Vector UInt8 16)

/-- The library's binding of parameters, for a statement that was prepared without declaring types: every
value is converted for the type the server reports (`ToSql`, db/pg.rs:431-464); a parameter whose type the
server cannot tell is an error. -/
def pgBind (ty : Nat → Option PgType) : Nat → List SqlVal → Conv (List PgVal)
  | _, [] => .ok []
  | i, v :: vs =>
    match ty i with
    | none => .err .backendType
    | some t => (toPg t v).bind fun a => (pgBind ty (i + 1) vs).bind fun as => .ok (a :: as)

/-- `pgtype_for_val`, db/pg.rs:913-933. -/
def pgTypeForVal (v : SqlVal) : PgType :=
  match v.sqltype with
  | none => .other "unknown"
  | some .json => .other "json"
  | some ty => pgType ty

/-- The value sent for a parameter of the type `pgtype_for_val` declares, db/pg.rs:213-219 with 431-464
(JSON is the same on the wire for `json`). -/
def pgSend (v : SqlVal) : Conv PgVal :=
  match v.sqltype with
  | none => .ok .null
  | some ty => toPg (pgType ty) v

def pgSendAll : List SqlVal → Conv (List PgVal)
  | [] => .ok []
  | v :: vs => (pgSend v).bind fun a => (pgSendAll vs).bind fun as => .ok (a :: as)

namespace PgConn

/-- Prepare, bind the values and execute, `GenericClient::execute` and `query_raw`, db/pg.rs:231-354.
`key` is the number a sequence gives next. -/
def exec (k : PgConn) (db : PDb) (key : Int64) (st : Stmt) : Except OpErr (PDb × Option PgVal) :=
  match Sql.parseStmt false (Sql.lex k.reserved st.text) with
  | none => .error .db
  | some s =>
    match (pgBind (paramType db s) 0 st.params).orErr with
    | .error e => .error e
    | .ok ps =>
      match execData k.server db key ps s with
      | some r => .ok r
      | none => .error .db

/-- `insert_returning_pk`, db/pg.rs:231-263, with `sql_val_from_postgres`, 568-587: the value must be of
the type of the key column or NULL. -/
def insertReturningPk (k : PgConn) (db : PDb) (key : Int64) (table : String) (cols : List String)
    (pkcol : String) (pkty : SqlType) (vals : List SqlVal) : Except OpErr (PDb × SqlVal) :=
  match k.exec db key (pgInsertReturning k.kw table cols pkcol vals) with
  | .error e => .error e
  | .ok (_, none) => .error .db
  | .ok (db', some v) =>
    if (fromPg v).isCompatible pkty true then .ok (db', fromPg v) else .error .decode

end PgConn

namespace TModel

/-- Insert the object and put the key into it, lib.rs:166-224. -/
def pgInsertNew (m : TModel) (k : PgConn) (db : PDb) (key : Int64) (pk : TField) (o : ObjVals m.fields)
    (cols : List String) (vals : List SqlVal) : Except OpErr (PDb × ObjVals m.fields) :=
  match k.insertReturningPk db key m.table cols pk.name (keyType pk) vals with
  | .error e => .error e
  | .ok (db', v) =>
    match (initKey k.parseUuid pk.name v m.fields o).orErr with
    | .error e => .error e
    | .ok o' => .ok (db', o')

/-- `DataObjectOps::save`, lib.rs:166-224, up to `save_many_to_many` (Model/Many.lean); `key` is the
number the sequence of the key gives next. -/
def pgSave (m : TModel) (k : PgConn) (db : PDb) (key : Int64) (o : ObjVals m.fields) :
    Except OpErr (PDb × ObjVals m.fields) :=
  match m.pkField with
  | none => .error .panic
  | some pk =>
    if pk.isAuto && m.columns.length == 1 then
      if keyValid pk.name m.fields o then .ok (db, o)
      else m.pgInsertNew k db key pk o [] []
    else if pk.isAuto then
      if keyValid pk.name m.fields o then
        match (keySql pk.name m.fields o).orErr, (m.nonAutoValues pk o false).orErr with
        | .ok v, .ok vals =>
          match k.exec db key (Backend.pg.update k.kw m.table pk.name v m.nonAutoColumns vals) with
          | .ok (db', _) => .ok (db', o)
          | .error e => .error e
        | .error e, _ => .error e
        | _, .error e => .error e
      else
        match (m.nonAutoValues pk o true).orErr with
        | .ok vals => m.pgInsertNew k db key pk o m.nonAutoColumns vals
        | .error e => .error e
    else
      match (m.nonAutoValues pk o true).orErr with
      | .ok vals =>
        match k.exec db key (Backend.pg.upsert k.kw m.table m.columns pk.name vals) with
        | .ok (db', _) => .ok (db', o)
        | .error e => .error e
      | .error e => .error e

/-- `DataObjectOps::delete`, lib.rs:227-232. -/
def pgDelete (m : TModel) (k : PgConn) (db : PDb) (o : ObjVals m.fields) : Except OpErr PDb :=
  match m.pkField with
  | none => .error .panic
  | some pk =>
    match (keySql pk.name m.fields o).orErr with
    | .ok v =>
      match k.exec db 0 (Backend.pg.delete k.kw m.table pk.name v) with
      | .ok (db', _) => .ok db'
      | .error e => .error e
    | .error e => .error e

/-- `mapped(T::from_row).collect()`, query/mod.rs:286-289: the first error wins. -/
def pgFromRows (m : TModel) (k : PgConn) :
    List (List PgVal) → Except OpErr (List (ObjVals m.fields))
  | [] => .ok []
  | r :: rs =>
    match tfromRow k.parseUuid r.length (pgGet r) m.fields with
    | none => .error .bounds
    | some c =>
      match c.orErr with
      | .error e => .error e
      | .ok o =>
        match m.pgFromRows k rs with
        | .ok os => .ok (o :: os)
        | .error e => .error e

/-- The possible results of `load` of a query on this model, query/mod.rs:284-290 with db/pg.rs:176-230;
`check_columns` (536-546) counts the columns of every row. -/
def PgLoadOut (m : TModel) (k : PgConn) (db : PDb) (q : Query)
    (res : Except OpErr (List (ObjVals m.fields))) : Prop :=
  match (pgSendAll (q.load .pg k.kw m.columns).params).orErr with
  | .error e => res = .error e
  | .ok ps => ∃ out, QueryRows k.server k.reserved db (q.load .pg k.kw m.columns).text
      ((q.load .pg k.kw m.columns).params.map pgTypeForVal) ps out ∧
    res = match out with
      | none => .error .db
      | some rows =>
        if rows.all fun r => r.length == m.columns.length then m.pgFromRows k rows else .error .db

/-- The possible results of `DataObjectOps::try_get`, lib.rs:141-158. -/
def PgTryGetOut (m : TModel) (k : PgConn) (db : PDb) (id : SqlVal)
    (res : Except OpErr (Option (ObjVals m.fields))) : Prop :=
  match m.pkField with
  | none => False
  | some pk => ∃ os, m.PgLoadOut k db (m.getQuery pk.name id) os ∧
    res = match os with
      | .ok os => .ok os.head?
      | .error e => .error e

/-- The possible results of `DataObjectOps::get`, lib.rs:133-138. -/
def PgGetOut (m : TModel) (k : PgConn) (db : PDb) (id : SqlVal)
    (res : Except OpErr (ObjVals m.fields)) : Prop :=
  ∃ r, m.PgTryGetOut k db id r ∧
    res = match r with
      | .ok (some o) => .ok o
      | .ok none => .error .noSuchObject
      | .error e => .error e

end TModel

end Butane
