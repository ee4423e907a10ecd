/-
The operations on objects with typed fields, on the SQLite backend.
Models butane_core/src/lib.rs (DataObjectOps), butane_core/src/codegen/dbobj.rs and
butane_core/src/db/sqlite.rs, with the conversions of Model/Convert.lean and Model/ObjRow.lean and
the statement texts of Model/Statements.lean.

The database is the environment: `execDataText` and `QueryRows` of Spec/SqliteData.lean read the
text of a statement and execute it.
-/
import Verif.Model.ObjRow
import Verif.Model.DataObject
import Verif.Spec.SqliteData

namespace Butane
open Butane.Ddl

/-- A struct with `#[model]`: `TABLE` (`make_tablelit`, codegen/dbobj.rs:221-226) and the fields in
declaration order. -/
structure TModel where
  table : String
  fields : List TField

/-- A connection to an SQLite database and the libraries it uses: SQLite's treatment of values,
butane's list of keywords and SQLite's, the text formats, and `Uuid::parse_str`. -/
structure SqliteConn where
  env : SqliteEnv
  data : SqliteData
  kw : String → Bool
  reserved : String → Bool
  codecs : TextCodecs
  parseUuid : String → Option (Vector UInt8 16)

/-- A failed conversion ends the operation. -/
def Conv.orErr {α : Type} : Conv α → Except OpErr α
  | .ok a => .ok a
  | .err _ => .error .decode
  | .panic => .error .panic

/-- Every value converted for the library, `sqlvals_to_sqlite` / `params_from_iter`,
db/sqlite.rs:252, 300, 337, 362, 383 with 513-541. -/
def bindAll (c : TextCodecs) : List SqlVal → Conv (List SqliteVal)
  | [] => .ok []
  | v :: vs => (toSqlite c v).bind fun a => (bindAll c vs).bind fun as => .ok (a :: as)

namespace SqliteConn

/-- Bind the values and execute, `Statement::execute`, db/sqlite.rs:284-390. -/
def exec (k : SqliteConn) (db : SDb) (st : Stmt) : Except OpErr SDb :=
  match (bindAll k.codecs st.params).orErr with
  | .error e => .error e
  | .ok ps =>
    match execDataText k.env k.data k.reserved db st.text ps with
    | some db' => .ok db'
    | none => .error .db

/-- `insert_returning_pk`, db/sqlite.rs:284-314: insert, then read the key column of the row
`last_insert_rowid()`, which is modelled as the last row of the table. -/
def insertReturningPk (k : SqliteConn) (db : SDb) (table : String) (cols : List String)
    (pkcol : String) (pkty : SqlType) (vals : List SqlVal) : Except OpErr (SDb × SqlVal) :=
  match k.exec db (Backend.sqlite.insert k.kw table cols vals) with
  | .error e => .error e
  | .ok db' =>
    match (db'.lookup table).bind fun t => t.rows.getLast?.bind fun r => field t.cols r pkcol with
    | none => .error .db
    | some v =>
      match (fromSqlite k.codecs v pkty).orErr with
      | .error e => .error e
      | .ok w => .ok (db', w)

end SqliteConn

/-- `to_sql` of the field of that name, codegen/dbobj.rs:97-99 for the key. -/
def keySql (n : String) : (fs : List TField) → ObjVals fs → Conv SqlVal
  | [], _ => .panic
  | ⟨n', _, some t⟩ :: fs, (x, os) => if n' = n then t.toSql x else keySql n fs os
  | ⟨_, _, none⟩ :: fs, (_, os) => keySql n fs os

/-- `PrimaryKeyType::is_valid` of the field of that name: whether an `AutoPk` has a value,
autopk.rs:110-117; other keys are valid, sqlval.rs:323-326. -/
def keyValid (n : String) : (fs : List TField) → ObjVals fs → Bool
  | [], _ => false
  | ⟨n', _, some (.autoPk _)⟩ :: fs, (x, os) => if n' = n then x.isSome else keyValid n fs os
  | ⟨n', _, _⟩ :: fs, (_, os) => if n' = n then true else keyValid n fs os

/-- `pk_mut().initialize(pk)`, sqlval.rs:332-337: the key is put into an `AutoPk` without one. -/
def initKey (parse : String → Option (Vector UInt8 16)) (n : String) (v : SqlVal) :
    (fs : List TField) → ObjVals fs → Conv (ObjVals fs)
  | [], o => .ok o
  | ⟨n', _, some (.autoPk t)⟩ :: fs, (x, os) =>
    if n' = n then
      match x with
      | some y => .ok (some y, os)
      | none => (FieldTy.fromSql parse (.autoPk t) v).bind fun y => .ok (y, os)
    else (initKey parse n v fs os).bind fun os' => .ok (x, os')
  | ⟨_, _, _⟩ :: fs, (x, os) => (initKey parse n v fs os).bind fun os' => .ok (x, os')

namespace TModel

/-- `pk_field`, codegen/mod.rs:350-361: the first field with the attribute, otherwise the field
called `id`. -/
def pkField (m : TModel) : Option TField :=
  match m.fields.find? (·.pkAttr) with
  | some f => some f
  | none => m.fields.find? (fun f => f.name == "id")

/-- The names of `COLUMNS`, codegen/dbobj.rs:161, 203-205, 352-372. -/
def columns (m : TModel) : List String := (tcolumns (fun _ => true) m.fields).map (·.1)

/-- The names of `NON_AUTO_COLUMNS`, codegen/dbobj.rs:39, 78-80. -/
def nonAutoColumns (m : TModel) : List String := (tcolumns (fun f => !f.isAuto) m.fields).map (·.1)

/-- `non_auto_values`, codegen/dbobj.rs:35-38, 49-69; fields are the same if they have the same name,
which Rust requires to be distinct. -/
def nonAutoValues (m : TModel) (pk : TField) (o : ObjVals m.fields) (includePk : Bool) :
    Conv (List SqlVal) :=
  pushValues (fun f => includePk || f.name != pk.name) m.fields o

/-- The type of the key, `<T::PKType as FieldType>::SQLTYPE`. -/
def keyType (pk : TField) : SqlType := match pk.ty with | some t => t.sqltype | none => .blob

/-- Insert the object and put the key into it, lib.rs:166-224. -/
def insertNew (m : TModel) (k : SqliteConn) (db : SDb) (pk : TField) (o : ObjVals m.fields)
    (cols : List String) (vals : List SqlVal) : Except OpErr (SDb × ObjVals m.fields) :=
  match k.insertReturningPk db m.table cols pk.name (keyType pk) vals with
  | .error e => .error e
  | .ok (db', v) =>
    match (initKey k.parseUuid pk.name v m.fields o).orErr with
    | .error e => .error e
    | .ok o' => .ok (db', o')

/-- `DataObjectOps::save`, lib.rs:166-224, up to `save_many_to_many` (Model/Many.lean). -/
def save (m : TModel) (k : SqliteConn) (db : SDb) (o : ObjVals m.fields) :
    Except OpErr (SDb × ObjVals m.fields) :=
  match m.pkField with
  | none => .error .panic
  | some pk =>
    if pk.isAuto && m.columns.length == 1 then
      if keyValid pk.name m.fields o then .ok (db, o)
      else m.insertNew k db pk o [] []
    else if pk.isAuto then
      if keyValid pk.name m.fields o then
        match (keySql pk.name m.fields o).orErr, (m.nonAutoValues pk o false).orErr with
        | .ok v, .ok vals =>
          match k.exec db (Backend.sqlite.update k.kw m.table pk.name v m.nonAutoColumns vals) with
          | .ok db' => .ok (db', o)
          | .error e => .error e
        | .error e, _ => .error e
        | _, .error e => .error e
      else
        match (m.nonAutoValues pk o true).orErr with
        | .ok vals => m.insertNew k db pk o m.nonAutoColumns vals
        | .error e => .error e
    else
      match (m.nonAutoValues pk o true).orErr with
      | .ok vals =>
        match k.exec db (Backend.sqlite.upsert k.kw m.table m.columns pk.name vals) with
        | .ok db' => .ok (db', o)
        | .error e => .error e
      | .error e => .error e

/-- `DataObjectOps::delete`, lib.rs:227-232. -/
def delete (m : TModel) (k : SqliteConn) (db : SDb) (o : ObjVals m.fields) : Except OpErr SDb :=
  match m.pkField with
  | none => .error .panic
  | some pk =>
    match (keySql pk.name m.fields o).orErr with
    | .ok v => k.exec db (Backend.sqlite.delete k.kw m.table pk.name v)
    | .error e => .error e

/-- `mapped(T::from_row).collect()`, query/mod.rs:286-289: the first error wins. -/
def fromRows (m : TModel) (k : SqliteConn) :
    List (List SqliteVal) → Except OpErr (List (ObjVals m.fields))
  | [] => .ok []
  | r :: rs =>
    match tfromRow k.parseUuid r.length (sqliteGet k.codecs r) m.fields with
    | none => .error .bounds
    | some c =>
      match c.orErr with
      | .error e => .error e
      | .ok o =>
        match m.fromRows k rs with
        | .ok os => .ok (o :: os)
        | .error e => .error e

/-- The possible results of `load` of a query on this model, query/mod.rs:284-290. -/
def LoadOut (m : TModel) (k : SqliteConn) (db : SDb) (q : Query)
    (res : Except OpErr (List (ObjVals m.fields))) : Prop :=
  match (bindAll k.codecs (q.load .sqlite k.kw m.columns).params).orErr with
  | .error e => res = .error e
  | .ok ps => ∃ out, QueryRows k.data k.reserved db (q.load .sqlite k.kw m.columns).text ps out ∧
    res = match out with
      | none => .error .db
      | some rows => m.fromRows k rows

/-- The possible results of `load_first` of a query on this model, query/mod.rs:278-283: of the rows only
the first is read (`.mapped(T::from_row).nth(0)`). -/
def LoadFirstOut (m : TModel) (k : SqliteConn) (db : SDb) (q : Query)
    (res : Except OpErr (Option (ObjVals m.fields))) : Prop :=
  match (bindAll k.codecs (q.loadFirst .sqlite k.kw m.columns).params).orErr with
  | .error e => res = .error e
  | .ok ps => ∃ out, QueryRows k.data k.reserved db (q.loadFirst .sqlite k.kw m.columns).text ps out ∧
    res = match out with
      | none => .error .db
      | some rows =>
        match m.fromRows k (rows.take 1) with
        | .ok os => .ok os.head?
        | .error e => .error e

/-- The query of `try_get`, lib.rs:147-157. -/
def getQuery (m : TModel) (pkcol : String) (id : SqlVal) : Query :=
  ((Query.new m.table).withFilter (.cmp .eq pkcol (.val id))).withLimit 1

/-- The possible results of `DataObjectOps::try_get`, lib.rs:141-158. -/
def TryGetOut (m : TModel) (k : SqliteConn) (db : SDb) (id : SqlVal)
    (res : Except OpErr (Option (ObjVals m.fields))) : Prop :=
  match m.pkField with
  | none => False
  | some pk => ∃ os, m.LoadOut k db (m.getQuery pk.name id) os ∧
    res = match os with
      | .ok os => .ok os.head?
      | .error e => .error e

/-- The possible results of `DataObjectOps::get`, lib.rs:133-138. -/
def GetOut (m : TModel) (k : SqliteConn) (db : SDb) (id : SqlVal)
    (res : Except OpErr (ObjVals m.fields)) : Prop :=
  ∃ r, m.TryGetOut k db id r ∧
    res = match r with
      | .ok (some o) => .ok o
      | .ok none => .error .noSuchObject
      | .error e => .error e

end TModel

end Butane
