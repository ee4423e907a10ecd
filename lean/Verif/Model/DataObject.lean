/-
Models as the code generator describes them, and the operations on objects.
Models butane_core/src/codegen/dbobj.rs, butane_core/src/codegen/mod.rs (field
classification), butane_core/src/lib.rs (DataObjectOps) and butane_core/src/autopk.rs.

The database is the environment: its behaviour is `execText` / `QueryOut` of
Spec/Stmt.lean.  Many fields are modelled in Model/Many.lean; here they only matter in
that they are not columns.
-/
import Verif.Model.Statements
import Verif.Spec.Stmt

namespace Butane

/-- What the code generator sees in a field's type: `AutoPk<T>` (`is_auto`,
codegen/mod.rs:363-365), `Many<T>` (`is_many_to_many`, codegen/mod.rs:413-415), or
anything else. -/
inductive FieldKind where
  | plain | autoPk | many
deriving DecidableEq, Repr

/-- A struct field: name, whether it has the `#[pk]` attribute, kind of type. -/
structure Field where
  name : String
  pkAttr : Bool
  kind : FieldKind
deriving DecidableEq, Repr

/-- `is_auto`, codegen/mod.rs:363-365. -/
def Field.isAuto (f : Field) : Bool := f.kind == .autoPk
/-- `is_row_field`, codegen/mod.rs:426-428. -/
def Field.isRow (f : Field) : Bool := f.kind != .many

/-- A struct with `#[model]`: `TABLE` (`make_tablelit`, codegen/dbobj.rs:221-226) and the
fields in declaration order. -/
structure ModelDef where
  table : String
  fields : List Field
deriving DecidableEq, Repr

namespace ModelDef

/-- `pk_field`, codegen/mod.rs:350-361: the first field with the attribute, otherwise the
field called `id`. -/
def pkField (m : ModelDef) : Option Field :=
  match m.fields.find? (·.pkAttr) with
  | some f => some f
  | none => m.fields.find? (fun f => f.name == "id")

/-- `COLUMNS`: `columns` with the predicate `true`, codegen/dbobj.rs:352-372,161,203-205. -/
def columns (m : ModelDef) : List String := (m.fields.filter (·.isRow)).map (·.name)

/-- `NON_AUTO_COLUMNS`, codegen/dbobj.rs:39,78-80. -/
def nonAutoColumns (m : ModelDef) : List String :=
  (m.fields.filter fun f => f.isRow && !f.isAuto).map (·.name)

/-- `verify_fields`, codegen/dbobj.rs:388-416: there is a key field, and only the key
field is automatic.  (The check that automatic keys are integers is not modelled.) -/
def verifyFields (m : ModelDef) : Bool :=
  match m.pkField with
  | none => false
  | some pk => m.fields.all fun f => !f.isAuto || decide (f = pk)

end ModelDef

/-- An object: the contents of its `AutoPk` field, if it has one (`None` is
uninitialised), and the `to_sql` values of its other fields by name. -/
structure Obj where
  auto : Option SqlVal
  val : String → SqlVal

/-- Why an operation fails. -/
inductive OpErr where
  | db            -- the database reports an error
  | panic         -- the thread panics
  | decode        -- a value cannot be converted
  | bounds        -- wrong number of columns
  | noSuchObject
  | notInitialized
  | valueNotSaved
  | valueNotLoaded
deriving DecidableEq, Repr

/-- `to_sql` of the key, codegen/dbobj.rs:97-99 with autopk.rs:72-76: panics for an
uninitialised `AutoPk`. -/
def ModelDef.pkVal (m : ModelDef) (o : Obj) : Except OpErr SqlVal :=
  match m.pkField with
  | none => .error .panic
  | some f =>
    if f.isAuto then
      match o.auto with
      | some v => .ok v
      | none => .error .panic
    else .ok (o.val f.name)

/-- `non_auto_values`, codegen/dbobj.rs:35-38,49-69 with `push_values`,
codegen/dbobj.rs:421-433. -/
def ModelDef.nonAutoValues (m : ModelDef) (o : Obj) (includePk : Bool) : List SqlVal :=
  (m.fields.filter fun f =>
    f.isRow && !f.isAuto && (includePk || !decide (some f = m.pkField))).map fun f => o.val f.name

/-- A connection and the database behind it. `kw` is butane's keyword list
(`quote_reserved_word`), `reserved` the database's.  `decode name v` is what reading the
database value `v` for the field `name` gives: `row.get` and `from_sql`
(modelled in Model/Convert.lean). -/
structure Session where
  b : Backend
  kw : String → Bool
  reserved : String → Bool
  rel : Sql.Compare
  le : Sql.DbVal → Sql.DbVal → Bool
  env : Sql.Env
  decode : String → Sql.DbVal → Option SqlVal

namespace Session

/-- Send a statement that changes data. -/
def exec (s : Session) (db : Sql.Db) (st : Stmt) : Except OpErr (Sql.Db × Nat × Option Sql.DbVal) :=
  match Sql.execText s.b.isSqlite s.rel s.reserved s.env db st.text st.params with
  | some r => .ok r
  | none => .error .db

/-- `insert_returning_pk`: PostgreSQL returns the key (db/pg.rs:231-263); SQLite inserts
and then reads the key column of the row `last_insert_rowid()` (db/sqlite.rs:284-314),
modelled as the last row of the table. -/
def insertReturningPk (s : Session) (db : Sql.Db) (table : String) (cols : List String)
    (pkcol : String) (vals : List SqlVal) : Except OpErr (Sql.Db × Sql.DbVal) :=
  match s.b with
  | .pg =>
    match s.exec db (pgInsertReturning s.kw table cols pkcol vals) with
    | .ok (db', _, some k) => .ok (db', k)
    | .ok (_, _, none) => .error .db
    | .error e => .error e
  | .sqlite =>
    match s.exec db (s.b.insert s.kw table cols vals) with
    | .ok (db', _, _) =>
      match (db'.rows table).getLast? with
      | some r => .ok (db', r.val pkcol)
      | none => .error .db
    | .error e => .error e

end Session

/-- `pk_mut().initialize(pk)`, sqlval.rs:332-337 and autopk.rs:59-69: the key is
decoded into the uninitialised `AutoPk`. -/
def initPk (s : Session) (pkcol : String) (o : Obj) (k : Sql.DbVal) : Except OpErr Obj :=
  match o.auto with
  | some _ => .ok o
  | none =>
    match s.decode pkcol k with
    | some v => .ok { o with auto := some v }
    | none => .error .decode

/-- `DataObjectOps::save`, lib.rs:166-224, up to `save_many_to_many`. -/
def ModelDef.save (m : ModelDef) (s : Session) (db : Sql.Db) (o : Obj) :
    Except OpErr (Sql.Db × Obj) :=
  match m.pkField with
  | none => .error .panic
  | some pk =>
    if pk.isAuto && m.columns.length == 1 then
      if o.auto.isNone then
        match s.insertReturningPk db m.table [] pk.name [] with
        | .ok (db', k) =>
          match initPk s pk.name o k with
          | .ok o' => .ok (db', o')
          | .error e => .error e
        | .error e => .error e
      else .ok (db, o)
    else if pk.isAuto then
      match o.auto with
      | some v =>
        match s.exec db (s.b.update s.kw m.table pk.name v m.nonAutoColumns
            (m.nonAutoValues o false)) with
        | .ok (db', _) => .ok (db', o)
        | .error e => .error e
      | none =>
        match s.insertReturningPk db m.table m.nonAutoColumns pk.name (m.nonAutoValues o true) with
        | .ok (db', k) =>
          match initPk s pk.name o k with
          | .ok o' => .ok (db', o')
          | .error e => .error e
        | .error e => .error e
    else
      match s.exec db (s.b.upsert s.kw m.table m.columns pk.name (m.nonAutoValues o true)) with
      | .ok (db', _) => .ok (db', o)
      | .error e => .error e

/-- `DataObjectOps::delete`, lib.rs:227-232. -/
def ModelDef.delete (m : ModelDef) (s : Session) (db : Sql.Db) (o : Obj) : Except OpErr Sql.Db :=
  match m.pkField, m.pkVal o with
  | some pk, .ok v =>
    match s.exec db (s.b.delete s.kw m.table pk.name v) with
    | .ok (db', _) => .ok db'
    | .error e => .error e
  | _, .error e => .error e
  | none, _ => .error .panic

/-- `rows_for_from`, codegen/dbobj.rs:330-351: every field that is a column reads the next
value of the row. -/
def rowsForFrom (decode : String → Sql.DbVal → Option SqlVal) (row : List Sql.DbVal) :
    List Field → Nat → Except OpErr (List (String × SqlVal))
  | [], _ => .ok []
  | f :: fs, i =>
    if f.isRow then
      match row[i]? with
      | none => .error .bounds
      | some x =>
        match decode f.name x with
        | none => .error .decode
        | some v =>
          match rowsForFrom decode row fs (i + 1) with
          | .ok rest => .ok ((f.name, v) :: rest)
          | .error e => .error e
    else rowsForFrom decode row fs i

/-- `from_row`, codegen/dbobj.rs:206-213. -/
def ModelDef.fromRow (m : ModelDef) (s : Session) (row : List Sql.DbVal) : Except OpErr Obj :=
  if row.length ≠ (m.fields.filter (·.isRow)).length then .error .bounds
  else
    match rowsForFrom s.decode row m.fields 0 with
    | .error e => .error e
    | .ok vals =>
      .ok ⟨match m.fields.find? (·.isAuto) with | some f => vals.lookup f.name | none => none,
        fun n => match vals.lookup n with | some v => v | none => .null⟩

/-- `mapped(T::from_row).collect()`, query/mod.rs:286-289: the first error wins. -/
def ModelDef.fromRows (m : ModelDef) (s : Session) : List (List Sql.DbVal) → Except OpErr (List Obj)
  | [] => .ok []
  | r :: rs =>
    match m.fromRow s r with
    | .error e => .error e
    | .ok o =>
      match m.fromRows s rs with
      | .ok os => .ok (o :: os)
      | .error e => .error e

/-- The possible results of `load` of a query on this model, query/mod.rs:284-290. -/
def ModelDef.LoadOut (m : ModelDef) (s : Session) (db : Sql.Db) (q : Query)
    (res : Except OpErr (List Obj)) : Prop :=
  ∃ out, Sql.QueryOut s.b.isSqlite s.rel s.le s.reserved db (q.load s.b s.kw m.columns).text
      (q.load s.b s.kw m.columns).params out ∧
    res = match out with
      | none => .error .db
      | some rows => m.fromRows s rows

/-- The query of `try_get`, lib.rs:147-157. -/
def ModelDef.getQuery (m : ModelDef) (pkcol : String) (id : SqlVal) : Query :=
  ((Query.new m.table).withFilter (.cmp .eq pkcol (.val id))).withLimit 1

/-- The possible results of `DataObjectOps::try_get`, lib.rs:141-158. -/
def ModelDef.TryGetOut (m : ModelDef) (s : Session) (db : Sql.Db) (id : SqlVal)
    (res : Except OpErr (Option Obj)) : Prop :=
  match m.pkField with
  | none => False
  | some pk => ∃ os, m.LoadOut s db (m.getQuery pk.name id) os ∧
    res = match os with
      | .ok os => .ok os.head?
      | .error e => .error e

/-- The possible results of `DataObjectOps::get`, lib.rs:133-138. -/
def ModelDef.GetOut (m : ModelDef) (s : Session) (db : Sql.Db) (id : SqlVal)
    (res : Except OpErr Obj) : Prop :=
  ∃ r, m.TryGetOut s db id r ∧
    res = match r with
      | .ok (some o) => .ok o
      | .ok none => .error .noSuchObject
      | .error e => .error e

end Butane
