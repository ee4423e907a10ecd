/-
Many-to-many fields.
Models butane_core/src/many.rs.

Objects are those of Model/DataObject.lean; `im` is the model of the items.  Every
statement is sent to the database of Spec/Stmt.lean; `fails n` says whether the n-th
statement of an operation fails for a reason outside butane (lost connection, constraint).
-/
import Verif.Model.DataObject

namespace Butane
open Sql

/-- `Many<T>`, many.rs:27-42.  `owner_type` only matters for schemas and is left out;
`cache` is the contents of the `OnceLock` `all_values`. -/
structure Many where
  itemTable : String
  owner : Option SqlVal
  newValues : List SqlVal
  removedValues : List SqlVal
  cache : Option (List Obj)

namespace Many

/-- `new`, many.rs:54-63. -/
def new : Many := ⟨"not_initialized", none, [], [], none⟩

/-- `ensure_init`, many.rs:66-74. -/
def ensureInit (m : Many) (table : String) (owner : SqlVal) : Many :=
  if m.owner.isSome then m
  else { m with itemTable := table, owner := some owner, cache := none }

/-- `add`, many.rs:82-92; `is_valid` is false only for an uninitialised `AutoPk`
(sqlval.rs:320-326, autopk.rs:110-117), which is where `to_sql` panics. -/
def add (im : ModelDef) (m : Many) (o : Obj) : Except OpErr Many :=
  match im.pkVal o with
  | .error _ => .error .valueNotSaved
  | .ok k => .ok { m with cache := none, newValues := m.newValues ++ [k] }

/-- `remove`, many.rs:97-101: panics for an uninitialised key (after clearing
`all_values`, which nobody can observe). -/
def remove (im : ModelDef) (m : Many) (o : Obj) : Except OpErr Many :=
  match im.pkVal o with
  | .error e => .error e
  | .ok k => .ok { m with cache := none, removedValues := m.removedValues ++ [k] }

/-- `get`, many.rs:106-111. -/
def get (m : Many) : Except OpErr (List Obj) :=
  match m.cache with
  | some vs => .ok vs
  | none => .error .valueNotLoaded

/-- `query`, many.rs:114-125. -/
def query (im : ModelDef) (pkcol : String) (m : Many) : Option Query :=
  match m.owner with
  | none => none
  | some o => some ((Query.new im.table).withFilter
      (.subquery pkcol m.itemTable "has" (.cmp .eq "owner" (.val o))))

/-- A statement that the outside world may make fail. -/
def exec (s : Session) (fail : Bool) (db : Db) (st : Stmt) : Except OpErr Db :=
  if fail then .error .db
  else
    match s.exec db st with
    | .ok (db', _) => .ok db'
    | .error e => .error e

/-- The `while` loop of `save`, many.rs:249-259.  The argument is `new_values` from its
end; `pop` takes the value before the insert is tried.  Returns the database, what is
left in `new_values` (from its end) and the error. -/
def insertAll (s : Session) (fails : Nat → Bool) (table : String) (owner : SqlVal) :
    Nat → Db → List SqlVal → Db × List SqlVal × Option OpErr
  | _, db, [] => (db, [], none)
  | n, db, v :: rest =>
    match exec s (fails n) db (s.b.insert s.kw table ["owner", "has"] [owner, v]) with
    | .error e => (db, rest, some e)
    | .ok db' => insertAll s fails table owner (n + 1) db' rest

/-- `save`, many.rs:247-269: the new database and `Many`, and the error.  `take` empties
`removed_values` before the statement is tried. -/
def save (s : Session) (fails : Nat → Bool) (db : Db) (m : Many) : Db × Many × Option OpErr :=
  match m.owner with
  | none => (db, m, some .notInitialized)
  | some owner =>
    match insertAll s fails m.itemTable owner 0 db m.newValues.reverse with
    | (db', rest, some e) => (db', { m with newValues := rest.reverse }, some e)
    | (db', _, none) =>
      if m.removedValues.isEmpty then (db', { m with newValues := [] }, none)
      else
        match exec s (fails m.newValues.length) db'
            (s.b.deleteWhere s.kw m.itemTable (.inVals "has" m.removedValues)) with
        | .error e => (db', { m with newValues := [], removedValues := [] }, some e)
        | .ok db'' => (db'', { m with newValues := [], removedValues := [] }, none)

/-- `delete`, many.rs:271-283. -/
def delete (s : Session) (fail : Bool) (db : Db) (m : Many) : Db × Many × Option OpErr :=
  match m.owner with
  | none => (db, m, some .notInitialized)
  | some owner =>
    match exec s fail db (s.b.deleteWhere s.kw m.itemTable (.cmp .eq "owner" (.val owner))) with
    | .error e => (db, m, some e)
    | .ok db' => (db', { m with newValues := [], removedValues := [], cache := some [] }, none)

/-- The `for` loop of `set`, many.rs:288-290. -/
def addAll (im : ModelDef) : Many → List Obj → Many × Option OpErr
  | m, [] => (m, none)
  | m, o :: os =>
    match m.add im o with
    | .error e => (m, some e)
    | .ok m' => addAll im m' os

/-- `set`, many.rs:285-295. -/
def set (im : ModelDef) (s : Session) (fails : Nat → Bool) (db : Db) (m : Many) (vals : List Obj) :
    Db × Many × Option OpErr :=
  match m.delete s (fails 0) db with
  | (db', m', some e) => (db', m', some e)
  | (db', m', none) =>
    match m'.addAll im vals with
    | (m'', some e) => (db', m'', some e)
    | (m'', none) =>
      match m''.save s (fun n => fails (n + 1)) db' with
      | (db'', m3, some e) => (db'', m3, some e)
      | (db'', m3, none) => (db'', { m3 with cache := some vals }, none)

/-- The possible results of `load_query_uncached`, many.rs:144-164. -/
def UncachedOut (im : ModelDef) (pkcol : String) (s : Session) (db : Db) (m : Many) (q : Query)
    (res : Except OpErr (List Obj)) : Prop :=
  ∃ r1, im.LoadOut s db q r1 ∧
    match r1 with
    | .error e => res = .error e
    | .ok vals =>
      if m.newValues.isEmpty then res = .ok vals
      else ∃ r2, im.LoadOut s db
          ((Query.new im.table).withFilter (.inVals pkcol m.newValues)) r2 ∧
        match r2 with
        | .error e => res = .error e
        | .ok more => res = .ok (vals ++ more)

/-- The possible results of `load_query`, many.rs:177-188, with `get_or_init_once_lock`,
util.rs:5-15, for one thread: a loaded value is returned as it is, a failed load leaves
the `Many` unloaded. -/
def LoadQueryOut (im : ModelDef) (pkcol : String) (s : Session) (db : Db) (m : Many) (q : Query)
    (res : Except OpErr (List Obj)) (m' : Many) : Prop :=
  match m.cache with
  | some vs => res = .ok vs ∧ m' = m
  | none => UncachedOut im pkcol s db m q res ∧
      m' = match res with
        | .ok vs => { m with cache := some vs }
        | .error _ => m

/-- The possible results of `load`, many.rs:297-312. -/
def LoadOut (im : ModelDef) (s : Session) (db : Db) (m : Many) (res : Except OpErr (List Obj))
    (m' : Many) : Prop :=
  match im.pkField with
  | none => False
  | some pk =>
    match m.query im pk.name with
    | none => res = .ok [] ∧ m' = m
    | some q => LoadQueryOut im pk.name s db m q res m'

/-- The possible results of `load_ordered`, many.rs:314-332. -/
def LoadOrderedOut (im : ModelDef) (s : Session) (db : Db) (m : Many) (d : Dir)
    (res : Except OpErr (List Obj)) (m' : Many) : Prop :=
  match im.pkField with
  | none => False
  | some pk =>
    match m.query im pk.name with
    | none => res = .ok [] ∧ m' = m
    | some q => LoadQueryOut im pk.name s db m (q.order pk.name d) res m'

end Many
end Butane
