/-
When a model fits a table of a PostgreSQL database, and which objects there are.
-/
import Verif.Model.PgObj
import Verif.Spec.SqliteObj

namespace Butane.Spec
open Butane Butane.PgData

/-- The column is the one for a field of that type. -/
structure PgFieldFits (pk f : TField) (ty : FieldTy) (d : Column) : Prop where
  name : d.name = f.name
  type : d.type = pgType ty.sqltype
  notNull : d.notNull = true → ¬ MayBeAbsent ty
  key : f.name = pk.name → d.notNull = true ∧ d.unique = true
  serial : f.isAuto = true → d.serial = true

/-- The table has a column for each field that is stored in the row; it may have more. -/
structure PgTableFits (m : TModel) (pk : TField) (t : Table) : Prop where
  distinct : (names t).Nodup
  fields : ∀ f ∈ m.fields, ∀ ty, f.ty = some ty → ∃ d ∈ t.cols, PgFieldFits pk f ty d

/-- A model butane accepts and PostgreSQL can read the statements of: names are ASCII identifiers and
fields have different names; there is a key field, whose name needs no quotes and whose type is neither
real nor JSON nor optional; only the key is `AutoPk`, and then of an integer type; there are at most 126
columns. -/
structure PgModelOk (k : PgConn) (m : TModel) (pk : TField) : Prop where
  covers : CoversReserved k.kw k.reserved
  excluded : k.reserved "excluded" = false
  table : IsName m.table
  table_ne : m.table ≠ "excluded"
  names : ∀ f ∈ m.fields, IsName f.name
  distinct : (m.fields.map (·.name)).Nodup
  key : m.pkField = some pk
  plain : PlainName k.reserved pk.name
  keyType : ∃ ty, pk.ty = some ty ∧ ty.sqltype ≠ .real ∧ ty.sqltype ≠ .json ∧ ¬ MayBeAbsent ty
  auto : ∀ f ∈ m.fields, f.isAuto = true → f = pk
  autoInt : ∀ ty, pk.ty = some (.autoPk ty) → ∃ I : IntType ty, IsIntType I
  count : m.columns.length ≤ 126

/-- The number of the sequence fits in the model's key type.  (Other numbers are read as another one,
C41.) -/
def PgKeyFits (pk : TField) (key : Int64) : Prop :=
  ∀ ty (I : IntType ty), pk.ty = some (.autoPk ty) → IsIntType I →
    I.lo ≤ key.toInt ∧ key.toInt ≤ I.hi

/-- `id` is of the type of the model's keys, and has no fraction of a microsecond. -/
def PgKeyLike (pk : TField) (id : SqlVal) : Prop := KeyLike pk id ∧ ¬ SubMicro id

/-- The program uses the database for a model: the model is as described above, the constraints of the
database hold, the table of the model fits, and PostgreSQL compares values as documented. -/
structure PgReady (k : PgConn) (m : TModel) (pk : TField) (u : PDb) : Prop where
  model : PgModelOk k m pk
  laws : Laws k.server
  sorted : u.Sorted
  valid : valid k.server u = true
  table : ∃ t, u.lookup m.table = some t ∧ PgTableFits m pk t

/-- Looking for an object by a key gives the one of that key, if there is one, and otherwise none, and
never fails. -/
def PgShows (k : PgConn) (m : TModel) (pk : TField) (u : PDb) (st : Objects m) : Prop :=
  ∀ id, PgKeyLike pk id → (∃ res, m.PgTryGetOut k u id res) ∧
    ∀ res, m.PgTryGetOut k u id res → ∃ x, res = .ok x ∧ OptRel (EqualFields m.fields) (st id) x

/-- What a program does with the objects of a model, and which objects there are then: objects are saved
and deleted, and so are objects of models with other tables.  (An operation that fails changes
nothing.)  The sequence may give any number that fits.  An object that has an automatic key is saved only
while there is an object with that key. -/
inductive PgRun (k : PgConn) (m : TModel) (pk : TField) (u0 : PDb) (st0 : Objects m) :
    PDb → Objects m → Prop
  | start : PgRun k m pk u0 st0 u0 st0
  | save {u st u' key o o' id} : PgRun k m pk u0 st0 u st → Storable m.fields o →
      AllWholeMicros m.fields o → PgKeyFits pk key →
      (pk.isAuto = true → keyValid pk.name m.fields o = true → ∀ id, keySql pk.name m.fields o = .ok id →
        (st id).isSome) →
      m.pgSave k u key o = .ok (u', o') → keySql pk.name m.fields o' = .ok id →
      PgRun k m pk u0 st0 u' (st.put id o')
  | delete {u st u' o id} : PgRun k m pk u0 st0 u st → Storable m.fields o →
      AllWholeMicros m.fields o → m.pgDelete k u o = .ok u' →
      keySql pk.name m.fields o = .ok id → PgRun k m pk u0 st0 u' (st.remove id)
  | saveOther {u st u' key} {m' : TModel} {pk' o o'} : PgRun k m pk u0 st0 u st → m'.table ≠ m.table →
      PgModelOk k m' pk' → m'.pgSave k u key o = .ok (u', o') → PgRun k m pk u0 st0 u' st
  | deleteOther {u st u'} {m' : TModel} {pk' o} : PgRun k m pk u0 st0 u st → m'.table ≠ m.table →
      PgModelOk k m' pk' → Storable m'.fields o → m'.pgDelete k u o = .ok u' → PgRun k m pk u0 st0 u' st

end Butane.Spec
