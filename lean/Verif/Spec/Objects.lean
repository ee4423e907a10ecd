/-
What the operations on objects are supposed to do: objects are entries of a map keyed by
primary key.
-/
import Verif.Model.DataObject
import Verif.Spec.Data

namespace Butane.Spec
open Butane.Sql

/-- The value an object has in a column field; `none` for an uninitialised automatic key. -/
def fieldVal (o : Obj) (f : Field) : Option SqlVal :=
  if f.isAuto then o.auto else some (o.val f.name)

/-- The objects agree in every field that is a column. -/
def SameObj (m : ModelDef) (a b : Obj) : Prop :=
  ∀ f ∈ m.fields, f.isRow = true → fieldVal a f = fieldVal b f

/-- The row holds the object's values. -/
def Stores (m : ModelDef) (o : Obj) (r : Row) : Prop :=
  ∀ f ∈ m.fields, f.isRow = true → ∃ v, fieldVal o f = some v ∧ r.val f.name = toDb v

/-- Reading the object's stored values gives them back (C40 - C42). -/
def Readable (m : ModelDef) (s : Session) (o : Obj) : Prop :=
  ∀ f ∈ m.fields, f.isRow = true → ∀ v, fieldVal o f = some v → s.decode f.name (toDb v) = some v

/-- A model and a connection that fit together: names are names, distinct, the key is a
column that can be written without quotes, the key is what the database takes for the key, and
new rows have the model's columns. -/
structure ModelOK (s : Session) (m : ModelDef) (pk : Field) : Prop where
  covers : CoversReserved s.kw s.reserved
  excluded : s.reserved "excluded" = false
  table : IsName m.table
  table_ne : m.table ≠ "excluded"
  names : ∀ f ∈ m.fields, IsName f.name
  nodup : (m.fields.map (·.name)).Nodup
  verify : m.verifyFields = true
  pk_field : m.pkField = some pk
  pk_row : pk.isRow = true
  pk_plain : PlainName s.reserved pk.name
  key : s.env.key m.table = pk.name
  template : ∀ rows, ∀ c ∈ m.columns, (s.env.template m.table rows).has c = true

/-- The values that can be keys: never null, and the database compares them exactly. -/
structure KeysOK (s : Session) (Key : DbVal → Prop) : Prop where
  notNull : ∀ a, Key a → a ≠ .null
  exact_ : ∀ a b, Key a → Key b → (s.rel .eq a b = true ↔ a = b)

/-- The table exists and its rows have the model's columns. -/
def TableOK (m : ModelDef) (db : Db) : Prop :=
  db.has m.table = true ∧ ∀ r ∈ db.rows m.table, ∀ c ∈ m.columns, r.has c = true

/-! ### Histories -/

inductive Op where
  | save (o : Obj)
  | delete (o : Obj)
  | get (id : SqlVal)
  | tryGet (id : SqlVal)

inductive Reply where
  | saved (o : Obj)
  | deleted
  | found (o : Obj)
  | missing
  | failed (e : OpErr)

/-- One operation of the program. -/
inductive Step (m : ModelDef) (s : Session) : Db → Op → Reply → Db → Prop
  | save {db o db' o'} : m.save s db o = .ok (db', o') → Step m s db (.save o) (.saved o') db'
  | save_err {db o e} : m.save s db o = .error e → Step m s db (.save o) (.failed e) db
  | delete {db o db'} : m.delete s db o = .ok db' → Step m s db (.delete o) .deleted db'
  | delete_err {db o e} : m.delete s db o = .error e → Step m s db (.delete o) (.failed e) db
  | get {db id o} : m.GetOut s db id (.ok o) → Step m s db (.get id) (.found o) db
  | get_err {db id e} : m.GetOut s db id (.error e) → Step m s db (.get id) (.failed e) db
  | tryGet {db id o} : m.TryGetOut s db id (.ok (some o)) → Step m s db (.tryGet id) (.found o) db
  | tryGet_none {db id} : m.TryGetOut s db id (.ok none) → Step m s db (.tryGet id) .missing db
  | tryGet_err {db id e} : m.TryGetOut s db id (.error e) → Step m s db (.tryGet id) (.failed e) db

/-- A history of the program. -/
inductive Runs (m : ModelDef) (s : Session) : Db → List Op → List Reply → Db → Prop
  | nil {db} : Runs m s db [] [] db
  | cons {db op r db' ops rs db''} : Step m s db op r db' → Runs m s db' ops rs db'' →
      Runs m s db (op :: ops) (r :: rs) db''

/-- A map from keys to objects. -/
abbrev Store := DbVal → Option Obj

def Store.set (st : Store) (k : DbVal) (o : Option Obj) : Store := fun k' => if k' = k then o else st k'

/-- One operation of the map; objects are compared by their column fields. -/
inductive MapStep (m : ModelDef) (key : Obj → DbVal) : Store → Op → Reply → Store → Prop
  | save {st o} : MapStep m key st (.save o) (.saved o) (st.set (key o) (some o))
  | delete {st o} : MapStep m key st (.delete o) .deleted (st.set (key o) none)
  | get {st id o o'} : st (toDb id) = some o → SameObj m o' o → MapStep m key st (.get id) (.found o') st
  | get_none {st id} : st (toDb id) = none → MapStep m key st (.get id) (.failed .noSuchObject) st
  | tryGet {st id o o'} : st (toDb id) = some o → SameObj m o' o →
      MapStep m key st (.tryGet id) (.found o') st
  | tryGet_none {st id} : st (toDb id) = none → MapStep m key st (.tryGet id) .missing st

/-- A history of the map. -/
inductive MapRuns (m : ModelDef) (key : Obj → DbVal) : Store → List Op → List Reply → Store → Prop
  | nil {st} : MapRuns m key st [] [] st
  | cons {st op r st' ops rs st''} : MapStep m key st op r st' → MapRuns m key st' ops rs st'' →
      MapRuns m key st (op :: ops) (r :: rs) st''

/-- The table holds exactly the objects of the map. -/
structure Holds (m : ModelDef) (s : Session) (pk : Field) (Key : DbVal → Prop) (st : Store) (db : Db) :
    Prop where
  table : TableOK m db
  distinct : (db.rows m.table).Pairwise fun a b => a.val pk.name ≠ b.val pk.name
  keys : ∀ r ∈ db.rows m.table, Key (r.val pk.name)
  absent : ∀ k, st k = none → ∀ r ∈ db.rows m.table, r.val pk.name ≠ k
  present : ∀ k o, st k = some o → ∃ r ∈ db.rows m.table, r.val pk.name = k ∧ Stores m o r ∧ Readable m s o

/-- The operation uses keys of the right kind, and objects that can be read back. -/
def OpOK (m : ModelDef) (s : Session) (pk : Field) (Key : DbVal → Prop) : Op → Prop
  | .save o => Key (toDb (o.val pk.name)) ∧ Readable m s o
  | .delete o => Key (toDb (o.val pk.name))
  | .get id => Key (toDb id)
  | .tryGet id => Key (toDb id)

/-! ### Automatic keys -/

/-- As long as the table has fewer than `cap` rows, the database gives every new row a
key that no row of the table has, and that can be read back. -/
def FreshKeys (s : Session) (m : ModelDef) (pk : Field) (Key : DbVal → Prop) (cap : Nat) : Prop :=
  ∀ rows, rows.length < cap → (∀ r ∈ rows, Key (r.val pk.name)) →
    Key ((s.env.template m.table rows).val pk.name) ∧
    (∀ r ∈ rows, r.val pk.name ≠ (s.env.template m.table rows).val pk.name) ∧
    ∃ v, s.decode pk.name ((s.env.template m.table rows).val pk.name) = some v ∧
      toDb v = (s.env.template m.table rows).val pk.name

/-- The operation uses keys of the right kind, and objects that can be read back. -/
def AutoOpOK (m : ModelDef) (s : Session) (Key : DbVal → Prop) : Op → Prop
  | .save o => (∀ v, o.auto = some v → Key (toDb v)) ∧ Readable m s o
  | .delete o => ∃ v, o.auto = some v ∧ Key (toDb v)
  | .get id => Key (toDb id)
  | .tryGet id => Key (toDb id)

/-- One operation of a map that hands out keys.  Saving an object without key puts it
under a new key; saving one with a key replaces the entry of that key, if there is one. -/
inductive AutoMapStep (m : ModelDef) : Store → Op → Reply → Store → Prop
  | insert {st o v} : o.auto = none → st (toDb v) = none →
      AutoMapStep m st (.save o) (.saved ⟨some v, o.val⟩) (st.set (toDb v) (some ⟨some v, o.val⟩))
  | update {st o v o'} : o.auto = some v → st (toDb v) = some o' →
      AutoMapStep m st (.save o) (.saved o) (st.set (toDb v) (some o))
  | update_none {st o v} : o.auto = some v → st (toDb v) = none →
      AutoMapStep m st (.save o) (.saved o) st
  | delete {st o v} : o.auto = some v → AutoMapStep m st (.delete o) .deleted (st.set (toDb v) none)
  | get {st id o o'} : st (toDb id) = some o → SameObj m o' o → AutoMapStep m st (.get id) (.found o') st
  | get_none {st id} : st (toDb id) = none → AutoMapStep m st (.get id) (.failed .noSuchObject) st
  | tryGet {st id o o'} : st (toDb id) = some o → SameObj m o' o →
      AutoMapStep m st (.tryGet id) (.found o') st
  | tryGet_none {st id} : st (toDb id) = none → AutoMapStep m st (.tryGet id) .missing st

inductive AutoMapRuns (m : ModelDef) : Store → List Op → List Reply → Store → Prop
  | nil {st} : AutoMapRuns m st [] [] st
  | cons {st op r st' ops rs st''} : AutoMapStep m st op r st' → AutoMapRuns m st' ops rs st'' →
      AutoMapRuns m st (op :: ops) (r :: rs) st''

end Butane.Spec
