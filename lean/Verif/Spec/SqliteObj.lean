/-
When a model fits a table of an SQLite database, and which objects can be stored.
-/
import Verif.Model.SqliteObj
import Verif.Spec.ObjRow
import Verif.Spec.SqliteMigrate

namespace Butane.Spec
open Butane Butane.Ddl

/-- The type has absent values. -/
def MayBeAbsent : FieldTy → Prop
  | .option _ => True
  | .newtype t => MayBeAbsent t
  | .autoPk t => MayBeAbsent t
  | _ => False

/-- The column is the one for a field of that type. -/
structure FieldFits (pk f : TField) (ty : FieldTy) (d : ColDef) : Prop where
  name : d.name = f.name
  type : ∃ st, sqliteType ty.sqltype = some st ∧ d.type = [st.name]
  notNull : (d.notNull = true ∨ d.pk = true) → ¬ MayBeAbsent ty
  pk : d.pk = true ↔ f.name = pk.name

/-- The table has a column for each field that is stored in the row, and no others; the key has no
default value. -/
structure TableFits (m : TModel) (pk : TField) (t : STable) : Prop where
  distinct : (t.cols.map (·.name)).Nodup
  fields : ∀ f ∈ m.fields, ∀ ty, f.ty = some ty → ∃ d ∈ t.cols, FieldFits pk f ty d
  columns : ∀ d ∈ t.cols, ∃ f ∈ m.fields, ∃ ty, f.ty = some ty ∧ d.name = f.name
  keyDefault : ∀ d ∈ t.cols, d.name = pk.name → d.default = none

/-- A model butane accepts and SQLite can read the statements of: names are ASCII identifiers and
fields have different names; there is a key field, whose name needs no quotes and whose type is
neither real nor optional; only the key is `AutoPk`, and then of an integer type. -/
structure TModelOk (k : SqliteConn) (m : TModel) (pk : TField) : Prop where
  covers : CoversReserved k.kw k.reserved
  excluded : k.reserved "excluded" = false
  table : IsName m.table
  table_ne : m.table ≠ "excluded"
  names : ∀ f ∈ m.fields, IsName f.name
  distinct : (m.fields.map (·.name)).Nodup
  key : m.pkField = some pk
  plain : PlainName k.reserved pk.name
  keyType : ∃ ty st, pk.ty = some ty ∧ sqliteType ty.sqltype = some st ∧ st ≠ .real ∧ ¬ MayBeAbsent ty
  auto : ∀ f ∈ m.fields, f.isAuto = true → f = pk
  autoInt : ∀ ty, pk.ty = some (.autoPk ty) → ∃ I : IntType ty, IsIntType I

/-- If SQLite gives the next row of the model's table a key, the key fits in the model's key type.
(Other keys are read as another number, C41.) -/
def KeyRoom (k : SqliteConn) (m : TModel) (pk : TField) (u : SDb) : Prop :=
  ∀ ty (I : IntType ty), pk.ty = some (.autoPk ty) → IsIntType I →
    ∀ t j, u.lookup m.table = some t → k.data.newKey (keysOf t pk.name) = some j →
      I.lo ≤ j.toInt ∧ j.toInt ≤ I.hi

/-- Every field that is a column has a value with a stored form; an automatic key may be missing. -/
def Storable : (fs : List TField) → ObjVals fs → Prop
  | [], _ => True
  | ⟨_, _, none⟩ :: fs, (_, os) => Storable fs os
  | ⟨_, _, some (.autoPk t)⟩ :: fs, (x, os) => (∀ y ∈ x, Proper t y) ∧ Storable fs os
  | ⟨_, _, some t⟩ :: fs, (x, os) => Proper t x ∧ Storable fs os

/-- The objects have the same fields, except that an automatic key may differ. -/
def SameButAuto : (fs : List TField) → ObjVals fs → ObjVals fs → Prop
  | [], _, _ => True
  | ⟨_, _, some (.autoPk _)⟩ :: fs, (_, os), (_, os') => SameButAuto fs os os'
  | ⟨_, _, _⟩ :: fs, (x, os), (y, os') => x = y ∧ SameButAuto fs os os'

/-- A database SQLite can have: the values fit the columns, and unique columns have no value twice. -/
structure SoundDb (env : SqliteEnv) (u : SDb) : Prop where
  proper : Proper.Db env u
  unique : ∀ n t, u.lookup n = some t → uniqueOk t.cols t.rows = true

/-- The database has a row with that key in the table of the model. -/
def HasRow (u : SDb) (m : TModel) (pk : TField) (a : SqliteVal) : Prop :=
  ∃ t, u.lookup m.table = some t ∧ ∃ r ∈ t.rows, field t.cols r pk.name = some a

/-- `id` is of the type of the model's keys. -/
def KeyLike (pk : TField) (id : SqlVal) : Prop := ∀ ty, pk.ty = some ty → id.sqltype = some ty.sqltype

/-- `id` is a key of the model, stored as `a`. -/
structure IsKeyVal (k : SqliteConn) (pk : TField) (id : SqlVal) (a : SqliteVal) : Prop where
  type : ∀ ty, pk.ty = some ty → id.sqltype = some ty.sqltype
  stored : toSqlite k.codecs id = .ok a

/-- Only rows of the model's table with the key `a` differ: other tables are the same, the
table has the same columns and foreign keys, and its other rows are the same in the same order. -/
structure OnlyKey (u u' : SDb) (table pkcol : String) (a : SqliteVal) : Prop where
  others : ∀ n, n ≠ table → u'.lookup n = u.lookup n
  table : ∃ t t', u.lookup table = some t ∧ u'.lookup table = some t' ∧ t'.cols = t.cols ∧
    t'.fks = t.fks ∧
    t'.rows.filter (fun r => !decide (field t.cols r pkcol = some a)) =
      t.rows.filter fun r => !decide (field t.cols r pkcol = some a)

/-- The program uses the database for a model: the model and the database are as described above, the
table of the model fits, and SQLite and the text formats behave as documented. -/
structure Ready (k : SqliteConn) (m : TModel) (pk : TField) (u : SDb) : Prop where
  model : TModelOk k m pk
  data : DataLaws k.env k.data
  strict : StrictLaws k.env
  codecs : Faithful k.codecs
  sound : SoundDb k.env u
  table : ∃ t, u.lookup m.table = some t ∧ TableFits m pk t

/-- Writing the object puts `w` into the column. -/
def Writes (k : SqliteConn) (m : TModel) (o : ObjVals m.fields) (d : ColDef) (w : SqliteVal) : Prop :=
  ∃ v b st, keySql d.name m.fields o = .ok v ∧ toSqlite k.codecs v = .ok b ∧
    strictType d.type = some st ∧ k.env.coerce st b = some w

/-- The row has the key of the object. -/
def IsRowOf (k : SqliteConn) (m : TModel) (pk : TField) (t : STable) (o : ObjVals m.fields)
    (r : List SqliteVal) : Prop :=
  ∃ d ∈ t.cols, d.name = pk.name ∧ ∃ a, Writes k m o d a ∧ field t.cols r pk.name = some a

/-- The database accepts the object: there is a key for it, no other object of the model has the same
value in a unique column, and the objects it refers to are there (or it refers to itself). -/
structure Admissible (k : SqliteConn) (m : TModel) (pk : TField) (u : SDb) (t : STable)
    (o : ObjVals m.fields) : Prop where
  newKey : keyValid pk.name m.fields o = false → (k.data.newKey (keysOf t pk.name)).isSome = true
  unique : ∀ d ∈ t.cols, d.unique = true → ∀ w, Writes k m o d w → w ≠ .null →
    ∀ r ∈ t.rows, field t.cols r d.name = some w → IsRowOf k m pk t o r
  refs : ∀ fk ∈ t.fks, ∃ d ∈ t.cols, d.name = fk.col ∧ ∀ w, Writes k m o d w → w ≠ .null →
    (∃ p, u.lookup fk.table = some p ∧ hasKey p fk.refCol w = true) ∨
    (fk.table = m.table ∧ fk.refCol = pk.name ∧ ∃ dk ∈ t.cols, dk.name = pk.name ∧ Writes k m o dk w)

/-- Foreign keys refer to keys, and an automatic key is not a foreign key. -/
structure KeyRefs (m : TModel) (pk : TField) (u : SDb) : Prop where
  refer : ∀ n s, u.lookup n = some s → ∀ fk ∈ s.fks, fk.table = m.table → fk.refCol = pk.name
  auto : pk.isAuto = true → ∀ t, u.lookup m.table = some t → ∀ fk ∈ t.fks, fk.col ≠ pk.name

/-- Objects by their keys. -/
abbrev Objects (m : TModel) := SqlVal → Option (ObjVals m.fields)

/-- With one more object, or another one for the key. -/
def Objects.put {m : TModel} (st : Objects m) (id : SqlVal) (o : ObjVals m.fields) : Objects m :=
  fun i => if i = id then some o else st i

/-- Without the object with the key. -/
def Objects.remove {m : TModel} (st : Objects m) (id : SqlVal) : Objects m :=
  fun i => if i = id then none else st i

/-- Looking for an object by a key gives the one of that key, if there is one, and otherwise none, and
never fails. -/
def ShowsObjs (k : SqliteConn) (m : TModel) (pk : TField) (u : SDb) (st : Objects m) : Prop :=
  ∀ id, KeyLike pk id → (∃ res, m.TryGetOut k u id res) ∧
    ∀ res, m.TryGetOut k u id res → ∃ x, res = .ok x ∧ OptRel (SameFields m.fields) (st id) x

/-- What a program does with the objects of a model, and which objects there are then: objects are saved
and deleted, and so are objects of models with other tables.  (An operation that fails changes
nothing.)  An object that has an automatic key is saved only while there is an object with that
key. -/
inductive ObjRun (k : SqliteConn) (m : TModel) (pk : TField) (u0 : SDb) (st0 : Objects m) :
    SDb → Objects m → Prop
  | start : ObjRun k m pk u0 st0 u0 st0
  | save {u st u' o o' id} : ObjRun k m pk u0 st0 u st → Storable m.fields o → NoNaNs m.fields o →
      KeyRoom k m pk u →
      (pk.isAuto = true → keyValid pk.name m.fields o = true → ∀ id, keySql pk.name m.fields o = .ok id →
        (st id).isSome) →
      m.save k u o = .ok (u', o') → keySql pk.name m.fields o' = .ok id →
      ObjRun k m pk u0 st0 u' (st.put id o')
  | delete {u st u' o id} : ObjRun k m pk u0 st0 u st → Storable m.fields o → m.delete k u o = .ok u' →
      keySql pk.name m.fields o = .ok id → ObjRun k m pk u0 st0 u' (st.remove id)
  | saveOther {u st u'} {m' : TModel} {pk' o o'} : ObjRun k m pk u0 st0 u st → m'.table ≠ m.table →
      TModelOk k m' pk' → m'.save k u o = .ok (u', o') → ObjRun k m pk u0 st0 u' st
  | deleteOther {u st u'} {m' : TModel} {pk' o} : ObjRun k m pk u0 st0 u st → m'.table ≠ m.table →
      TModelOk k m' pk' → Storable m'.fields o → m'.delete k u o = .ok u' → ObjRun k m pk u0 st0 u' st

end Butane.Spec
