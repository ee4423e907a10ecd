/-
The Turso backend: inserting with an automatic key, when several calls share a connection.
Models butane_core/src/db/turso.rs:418-467 (`insert_returning_pk`): two requests to the database,
with a suspension point (`.await`) between them, at which other calls on the same connection may
run (`ConnectionMethods` takes `&self`, so a connection may be shared by several futures).
-/
import Verif.Model.TursoRows

namespace Butane.Turso

/-- One request of some call of `insert_returning_pk`, or any other request that changes rows but
inserts none (`update`, `delete`). -/
inductive Req (α : Type) where
  /-- the first request of call `call`: `INSERT` of the values `vals` into `table` -/
  | insert (call : Nat) (table : String) (vals : α)
  /-- its second: `SELECT last_insert_rowid()`, decoded with the type of the key column -/
  | read (call : Nat) (ty : SqlType)
  | other (f : List (String × Int64 × α) → List (String × Int64 × α))

/-- The database and the connection: the rows of all tables with their row ids (which are the keys
of tables with an automatic key), the keys a table has ever given out (`AUTOINCREMENT`), and
`last_insert_rowid()` of the connection. -/
structure Eng (α : Type) where
  rows : List (String × Int64 × α)
  used : List (String × Int64)
  last : Int64

/-- What the calls got: the key their row has (not seen by the program) and what they returned. -/
structure Calls where
  own : List (Nat × Int64)
  returned : List (Nat × Conv SqlVal)

/-- One request.  `fresh` is the choice of a key by the engine for a table. -/
def request {α : Type} (c : TextCodecs) (fresh : List Int64 → Int64) (s : Eng α × Calls) :
    Req α → Eng α × Calls
  | .insert call table vals =>
    let k := fresh ((s.1.used.filter fun x => x.1 == table).map (·.2))
    (⟨s.1.rows ++ [(table, k, vals)], (table, k) :: s.1.used, k⟩,
      { s.2 with own := (call, k) :: s.2.own })
  | .read call ty =>
    (s.1, { s.2 with returned := (call, fromTurso c (.integer s.1.last) ty) :: s.2.returned })
  | .other f => ({ s.1 with rows := f s.1.rows }, s.2)

/-- Requests in the order in which the database sees them. -/
def requests {α : Type} (c : TextCodecs) (fresh : List Int64 → Int64) (s : Eng α × Calls)
    (l : List (Req α)) : Eng α × Calls := l.foldl (request c fresh) s

end Butane.Turso
