/-
`Many` fields and `Query::delete` for objects with typed fields, on the SQLite backend.
Models butane_core/src/many.rs and `delete` of butane_core/src/query/mod.rs, with the statement texts of
Model/Statements.lean and the connection of Model/SqliteObj.lean.
-/
import Verif.Model.SqliteObj

namespace Butane
open Butane.Ddl

/-- `Query::delete`, query/mod.rs:291-294, without the number of rows. -/
def TModel.deleteQuery (k : SqliteConn) (db : SDb) (q : Query) : Except OpErr SDb :=
  k.exec db (q.delete .sqlite k.kw)

/-- `Many<T>`, many.rs:27-42; `im` is the model `T`.  `owner_type` only matters for schemas and is left
out; `cache` is the contents of the `OnceLock` `all_values`. -/
structure TMany (im : TModel) where
  itemTable : String
  owner : Option SqlVal
  newValues : List SqlVal
  removedValues : List SqlVal
  cache : Option (List (ObjVals im.fields))

namespace TMany

variable {im : TModel}

/-- `new`, many.rs:54-63. -/
def new : TMany im := ⟨"not_initialized", none, [], [], none⟩

/-- `ensure_init`, many.rs:66-74. -/
def ensureInit (m : TMany im) (table : String) (owner : SqlVal) : TMany im :=
  if m.owner.isSome then m
  else { m with itemTable := table, owner := some owner, cache := none }

/-- `add`, many.rs:82-92. -/
def add (m : TMany im) (pk : TField) (o : ObjVals im.fields) : Except OpErr (TMany im) :=
  if keyValid pk.name im.fields o then
    match (keySql pk.name im.fields o).orErr with
    | .ok v => .ok { m with cache := none, newValues := m.newValues ++ [v] }
    | .error e => .error e
  else .error .valueNotSaved

/-- `remove`, many.rs:97-101: panics for a key without a value (after clearing `all_values`, which nobody
can observe). -/
def remove (m : TMany im) (pk : TField) (o : ObjVals im.fields) : Except OpErr (TMany im) :=
  match (keySql pk.name im.fields o).orErr with
  | .ok v => .ok { m with cache := none, removedValues := m.removedValues ++ [v] }
  | .error e => .error e

/-- `query`, many.rs:114-125. -/
def query (m : TMany im) (pk : TField) : Option Query :=
  match m.owner with
  | none => none
  | some o => some ((Query.new im.table).withFilter
      (.subquery pk.name m.itemTable "has" (.cmp .eq "owner" (.val o))))

/-- The `while` loop of `save`, many.rs:249-259, from the end of `new_values`: the database, what is left
in `new_values` (from its end) and the error.  `pop` takes the value before the insert is tried. -/
def insertAll (k : SqliteConn) (table : String) (owner : SqlVal) :
    SDb → List SqlVal → SDb × List SqlVal × Option OpErr
  | db, [] => (db, [], none)
  | db, v :: rest =>
    match k.exec db (Backend.sqlite.insert k.kw table ["owner", "has"] [owner, v]) with
    | .error e => (db, rest, some e)
    | .ok db' => insertAll k table owner db' rest

/-- `save`, many.rs:247-269: the new database and `Many`, and the error.  `take` empties
`removed_values` before the statement is tried. -/
def save (m : TMany im) (k : SqliteConn) (db : SDb) : SDb × TMany im × Option OpErr :=
  match m.owner with
  | none => (db, m, some .notInitialized)
  | some owner =>
    match insertAll k m.itemTable owner db m.newValues.reverse with
    | (db', rest, some e) => (db', { m with newValues := rest.reverse }, some e)
    | (db', _, none) =>
      if m.removedValues.isEmpty then (db', { m with newValues := [] }, none)
      else
        match k.exec db' (Backend.sqlite.deleteWhere k.kw m.itemTable (.inVals "has" m.removedValues)) with
        | .error e => (db', { m with newValues := [], removedValues := [] }, some e)
        | .ok db'' => (db'', { m with newValues := [], removedValues := [] }, none)

/-- `delete`, many.rs:271-283. -/
def delete (m : TMany im) (k : SqliteConn) (db : SDb) : SDb × TMany im × Option OpErr :=
  match m.owner with
  | none => (db, m, some .notInitialized)
  | some owner =>
    match k.exec db (Backend.sqlite.deleteWhere k.kw m.itemTable (.cmp .eq "owner" (.val owner))) with
    | .error e => (db, m, some e)
    | .ok db' => (db', { m with newValues := [], removedValues := [], cache := some [] }, none)

/-- The `for` loop of `set`, many.rs:288-290. -/
def addAll (pk : TField) : TMany im → List (ObjVals im.fields) → TMany im × Option OpErr
  | m, [] => (m, none)
  | m, o :: os =>
    match m.add pk o with
    | .error e => (m, some e)
    | .ok m' => addAll pk m' os

/-- `set`, many.rs:285-295. -/
def set (m : TMany im) (pk : TField) (k : SqliteConn) (db : SDb) (vals : List (ObjVals im.fields)) :
    SDb × TMany im × Option OpErr :=
  match m.delete k db with
  | (db', m', some e) => (db', m', some e)
  | (db', m', none) =>
    match m'.addAll pk vals with
    | (m'', some e) => (db', m'', some e)
    | (m'', none) =>
      match m''.save k db' with
      | (db'', m3, some e) => (db'', m3, some e)
      | (db'', m3, none) => (db'', { m3 with cache := some vals }, none)

/-- The possible results of `load_query_uncached`, many.rs:144-164. -/
def UncachedOut (m : TMany im) (pk : TField) (k : SqliteConn) (db : SDb) (q : Query)
    (res : Except OpErr (List (ObjVals im.fields))) : Prop :=
  ∃ r1, im.LoadOut k db q r1 ∧
    match r1 with
    | .error e => res = .error e
    | .ok vals =>
      if m.newValues.isEmpty then res = .ok vals
      else ∃ r2, im.LoadOut k db ((Query.new im.table).withFilter (.inVals pk.name m.newValues)) r2 ∧
        match r2 with
        | .error e => res = .error e
        | .ok more => res = .ok (vals ++ more)

/-- The possible results of `load_query`, many.rs:177-188, with `get_or_init_once_lock`, util.rs:5-15, for
one thread: a loaded value is returned as it is, a failed load leaves the `Many` unloaded. -/
def LoadQueryOut (m : TMany im) (pk : TField) (k : SqliteConn) (db : SDb) (q : Query)
    (res : Except OpErr (List (ObjVals im.fields))) (m' : TMany im) : Prop :=
  match m.cache with
  | some vs => res = .ok vs ∧ m' = m
  | none => m.UncachedOut pk k db q res ∧
      m' = match res with
        | .ok vs => { m with cache := some vs }
        | .error _ => m

/-- The possible results of `load` (without a direction), many.rs:297-312, and `load_ordered`,
many.rs:314-332. -/
def LoadOut (m : TMany im) (pk : TField) (k : SqliteConn) (db : SDb) (d : Option Dir)
    (res : Except OpErr (List (ObjVals im.fields))) (m' : TMany im) : Prop :=
  match m.query pk with
  | none => res = .ok [] ∧ m' = m
  | some q => m.LoadQueryOut pk k db (match d with | none => q | some d => q.order pk.name d) res m'

end TMany

/-- A `Many` field of an object: its link table (`many_table_lit`, codegen/dbobj.rs:374-385) and its value. -/
structure ManyField where
  table : String
  im : TModel
  many : TMany im

/-- The generated `save_many_to_many_sync`, codegen/dbobj.rs:88-94 and 432-458: `ensure_init` and `save`
for every `Many` field, up to the first error. -/
def saveMany (k : SqliteConn) (owner : SqlVal) :
    SDb → List ManyField → SDb × List ManyField × Option OpErr
  | db, [] => (db, [], none)
  | db, f :: fs =>
    match (f.many.ensureInit f.table owner).save k db with
    | (db', m', some e) => (db', { f with many := m' } :: fs, some e)
    | (db', m', none) =>
      match saveMany k owner db' fs with
      | (db'', fs', e) => (db'', { f with many := m' } :: fs', e)

/-- `DataObjectOps::save`, lib.rs:166-224, of an object with `Many` fields.  (Simplified: an error of the
statement for the object's own row leaves the object as it is.) -/
def TModel.saveObj (m : TModel) (k : SqliteConn) (db : SDb) (o : ObjVals m.fields) (fs : List ManyField) :
    SDb × ObjVals m.fields × List ManyField × Option OpErr :=
  match m.save k db o with
  | .error e => (db, o, fs, some e)
  | .ok (db', o') =>
    match m.pkField with
    | none => (db', o', fs, some .panic)
    | some pk =>
      match (keySql pk.name m.fields o').orErr with
      | .error e => (db', o', fs, some e)
      | .ok v =>
        match saveMany k v db' fs with
        | (db'', fs', e) => (db'', o', fs', e)

end Butane
