/-
What it means for an SQLite database to have a schema, and for its rows to be kept.
-/
import Verif.Spec.Schema
import Verif.Spec.DdlNames

namespace Butane.Spec
open Butane Butane.Ddl

/-- Both absent, or both present and related. -/
def Both {α β : Type} (R : α → β → Prop) : Option α → Option β → Prop
  | none, none => True
  | some a, some b => R a b
  | _, _ => False

/-- The storage class of a column of a built-in type. -/
def StoredAs (c : AColumn) (st : SqliteType) : Prop :=
  ∃ ty, c.typeid = some (.ty ty) ∧ sqliteType ty = some st

/-- The column of the database is the one the schema describes.  A key has no default value (columns
that were added to a table have one). -/
structure ColumnIs (c : AColumn) (d : ColDef) : Prop where
  name : d.name = c.name
  type : ∃ st, StoredAs c st ∧ d.type = [st.name]
  notNull : d.notNull = !c.nullable
  pk : d.pk = c.pk
  unique : d.unique = c.unique
  keyDefault : c.pk = true → d.default = none

/-- A column of the database, by name. -/
def dbColumn (s : STable) (n : String) : Option ColDef := s.cols.find? (·.name = n)

/-- The table of the database is the one the schema describes: the same columns, and a foreign
key for each reference. -/
structure TableIs (t : ATable) (s : STable) : Prop where
  columns : ∀ n, Both ColumnIs (t.column n) (dbColumn s n)
  refs : ∀ fk, fk ∈ s.fks ↔
    ∃ c, t.column fk.col = some c ∧ c.reference = some (.literal fk.table fk.refCol)

/-- The database has exactly the tables of the schema. -/
def Implements (adb : ADB) (db : SDb) : Prop :=
  ∀ n, Both TableIs (adb.getTable n) (db.lookup n)

/-- A database SQLite can have: distinct column names, and rows with a value for each column
that the column accepts as it is. -/
structure Proper.Table (env : SqliteEnv) (s : STable) : Prop where
  distinct : (s.cols.map (·.name)).Nodup
  stored : ∀ r ∈ s.rows, AllMatch
    (fun (d : ColDef) v => ∃ st, strictType d.type = some st ∧ env.coerce st v = some v) s.cols r

structure Proper.Db (env : SqliteEnv) (db : SDb) : Prop where
  sorted : db.Sorted
  tables : ∀ n s, db.lookup n = some s → Proper.Table env s

/-- How SQLite stores values in the columns of STRICT tables: a value of the column's own class
and NULL are stored as they are, and what was stored once can be stored again unchanged. -/
structure StrictLaws (env : SqliteEnv) : Prop where
  null : ∀ st, env.coerce st .null = some .null
  integer : ∀ i, env.coerce .integer (.integer i) = some (.integer i)
  text : ∀ t, env.coerce .text (.text t) = some (.text t)
  blob : ∀ b, env.coerce .blob (.blob b) = some (.blob b)
  stable : ∀ st v w, env.coerce st v = some w → env.coerce st w = some w

/-- The name of the table that replaces `n` while a column is changed. -/
def replacement (n : String) : String := n ++ "__butane_tmp"

/-- A column butane can describe to SQLite: names without characters that need quoting, a
built-in type, a resolved reference (to a table that is no replacement), and `AUTOINCREMENT`
only on the key, where it is left out. -/
structure PlainColumn (c : AColumn) : Prop where
  name : IsName c.name
  type : ∃ st, StoredAs c st
  auto : c.auto = true → c.pk = true
  reference : ∀ r, c.reference = some r →
    ∃ t k, r = .literal t k ∧ IsName t ∧ IsName k ∧ ∀ n, t ≠ replacement n

/-- A table of such columns. -/
structure PlainTable (t : ATable) : Prop where
  name : IsName t.name
  columns : ∀ c ∈ t.columns, PlainColumn c

/-- A schema of such tables. -/
def PlainSchema (adb : ADB) : Prop := ∀ n t, adb.getTable n = some t → PlainTable t

/-- The value a new column gets in the rows that exist: its default, or NULL, or the zero of its
type. -/
inductive NewValue (c : AColumn) : SqlVal → Prop where
  | default {v} : c.default = some v → NewValue c v
  | null : c.default = none → c.nullable = true → NewValue c .null
  | bool : c.default = none → c.nullable = false → c.typeid = some (.ty .bool) →
      NewValue c (.bool false)
  | int : c.default = none → c.nullable = false → c.typeid = some (.ty .int) → NewValue c (.int 0)
  | bigInt : c.default = none → c.nullable = false → c.typeid = some (.ty .bigInt) →
      NewValue c (.int 0)
  | real : c.default = none → c.nullable = false → c.typeid = some (.ty .real) →
      NewValue c (.real ⟨0⟩)
  | text : c.default = none → c.nullable = false → c.typeid = some (.ty .text) →
      NewValue c (.text "")
  | blob : c.default = none → c.nullable = false → c.typeid = some (.ty .blob) →
      NewValue c (.blob [])
  | json : c.default = none → c.nullable = false → c.typeid = some (.ty .json) →
      NewValue c (.json "null")
  | timestamp : c.default = none → c.nullable = false → c.typeid = some (.ty .timestamp) →
      NewValue c (.timestamp 0)
  | date : c.default = none → c.nullable = false → c.typeid = some (.ty .date) →
      NewValue c (.date 1)

/-- The literal a real is written as denotes that real in a `REAL` column. -/
def RealReads (env : SqliteEnv) (p : LitPrinters) (r : F64) : Prop :=
  ∃ neg s, p.real r = (if neg then '-' :: s else s) ∧ IsNumeral s ∧
    (litVal env (.num neg s)).bind (env.coerce .real) = some (.real r)

/-- A value whose literal is read back, in a column of the value's own class, as the value butane
stores: null, a truth value, an integer, a real whose literal is read back, a text without
quotes, bytes. -/
def LiteralReads (env : SqliteEnv) (p : LitPrinters) (st : SqliteType) : SqlVal → Prop
  | .null => True
  | .bool _ => st = .integer
  | .int _ => st = .integer
  | .bigInt _ => st = .integer
  | .real r => st = .real ∧ RealReads env p r
  | .text s => st = .text ∧ '\'' ∉ s.toList
  | .blob _ => st = .blob
  | _ => False

/-- What adding a column needs here: a readable default and no reference. -/
structure AddableColumn (env : SqliteEnv) (p : LitPrinters) (c : AColumn) : Prop where
  reference : c.reference = none
  value : ∀ v st, NewValue c v → StoredAs c st → LiteralReads env p st v

/-- The rows of tables in both schemas are kept, in order: a column in both schemas has the value
it had, converted if the type was changed, and a new column has its default.  New tables have no
rows. -/
structure RowsKept (env : SqliteEnv) (codecs : TextCodecs) (old new : ADB) (db db' : SDb) : Prop where
  kept : ∀ n t t' s s', old.getTable n = some t → new.getTable n = some t' →
    db.lookup n = some s → db'.lookup n = some s' →
    AllMatch (fun r r' =>
      (∀ c x y st, t.column c = some x → t'.column c = some y → StoredAs y st →
        ∃ v w, field s.cols r c = some v ∧ field s'.cols r' c = some w ∧
          env.coerce st v = some w ∧ (StoredAs x st → w = v)) ∧
      (∀ c y v b, t.column c = none → t'.column c = some y → NewValue y v →
        toSqlite codecs v = .ok b → field s'.cols r' c = some b)) s.rows s'.rows
  created : ∀ n s', old.getTable n = none → db'.lookup n = some s' → s'.rows = []

/-- At most one column is the primary key. -/
def OneKey (t : ATable) : Prop :=
  ∀ c ∈ t.columns, ∀ d ∈ t.columns, c.pk = true → d.pk = true → c.name = d.name

/-- A change of schema SQLite can make with the statements butane uses: new tables have a column
and at most one key, removed tables are not referenced by other tables, new columns are neither
key nor unique and are not filled with NULL against their definition, removed columns are neither
key nor unique nor a reference and not the last, and columns are changed only in tables without
rows, where no other table has the name of the replacement and the column does not become or
cease to be the key. -/
structure Feasible (old new : ADB) (db : SDb) : Prop where
  created : ∀ n t, old.getTable n = none → new.getTable n = some t → t.columns ≠ [] ∧ OneKey t
  dropped : ∀ n t, old.getTable n = some t → new.getTable n = none →
    ∀ m u c k, old.getTable m = some u ∨ new.getTable m = some u → m ≠ n → c ∈ u.columns →
      c.reference ≠ some (.literal n k)
  added : ∀ n s t c y, old.getTable n = some s → new.getTable n = some t → s.column c = none →
    t.column c = some y →
    y.pk = false ∧ y.unique = false ∧ (y.nullable = false → ¬ NewValue y .null)
  removed : ∀ n s t c x, old.getTable n = some s → new.getTable n = some t →
    s.column c = some x → t.column c = none →
    x.pk = false ∧ x.unique = false ∧ x.reference = none ∧
      ∃ k z w, s.column k = some z ∧ t.column k = some w
  changed : ∀ n s t c x y, old.getTable n = some s → new.getTable n = some t →
    s.column c = some x → t.column c = some y →
    (SameColumn x y ∧ ∀ r, x.default = some (.real r) → r.isNaN = false) ∨
    (x.pk = y.pk ∧ OneKey s ∧ (∀ u, db.lookup n = some u → u.rows = []) ∧
      old.getTable (replacement n) = none ∧ new.getTable (replacement n) = none)

end Butane.Spec
