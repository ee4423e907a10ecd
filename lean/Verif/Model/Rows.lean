/-
Buffered query results.
Models butane_core/src/db/connmethods.rs:107-243 and the reading of a row in
butane_core/src/db/sqlite.rs:607-613.
-/
import Verif.Model.Convert

namespace Butane

/-- `VecRows`, db/connmethods.rs:152-156. -/
structure VecRows (T : Type) where
  rows : List T
  idx : Nat
deriving DecidableEq, Repr

namespace VecRows
variable {T : Type}

/-- `VecRows::new`, db/connmethods.rs:158-160. -/
def new (rows : List T) : VecRows T := ⟨rows, 0⟩

/-- `VecRows::next`, db/connmethods.rs:178-182.  The index is a number that does not overflow. -/
def next (r : VecRows T) : Option T × VecRows T := (r.rows[r.idx]?, { r with idx := r.idx + 1 })

/-- `VecRows::current`, db/connmethods.rs:184-186. -/
def current (r : VecRows T) : Option T := r.rows[r.idx]?

end VecRows

/-- How reading rows or values of rows fails: `BoundsError`, `CannotConvertSqlVal`, an error of
the conversion, an error of the database while rows are fetched. -/
inductive RowErr where
  | bounds | cannotConvert | convert (e : ConvErr) | panicked | fetch
deriving DecidableEq, Repr

/-- `BackendRow`, db/connmethods.rs:96-103: reading a column as a type, and the number of
columns. -/
structure BRow where
  len : Nat
  get : Nat → SqlType → Except RowErr SqlVal

/-- All results in order, or the first error: `collect::<Result<Vec<_>>>()`. -/
def collectRows {α : Type} : List (Except RowErr α) → Except RowErr (List α)
  | [] => .ok []
  | .error e :: _ => .error e
  | .ok a :: rest =>
    match collectRows rest with
    | .ok as => .ok (a :: as)
    | .error e => .error e

/-- `VecRow::new`, db/connmethods.rs:207-222. -/
def vecRowNew (original : BRow) (columns : List SqlType) : Except RowErr (List SqlVal) :=
  if original.len ≠ columns.length then .error .bounds
  else collectRows (columns.zipIdx.map fun c => original.get c.2 c.1)

/-- `VecRow::get`, db/connmethods.rs:227-239. -/
def vecRowGet (values : List SqlVal) (idx : Nat) (ty : SqlType) : Except RowErr SqlVal :=
  match values[idx]? with
  | none => .error .bounds
  | some v => if v.isCompatible ty true then .ok v else .error .cannotConvert

/-- A `VecRow` as a row. -/
def vecRow (values : List SqlVal) : BRow := ⟨values.length, vecRowGet values⟩

/-- A row of SQLite: `BackendRow for rusqlite::Row`, db/sqlite.rs:607-613.  A column that does not
exist is an error of the database. -/
def sqliteBRow (codecs : TextCodecs) (row : List SqliteVal) : BRow where
  len := row.length
  get i ty :=
    match row[i]? with
    | none => .error .fetch
    | some b =>
      match fromSqlite codecs b ty with
      | .ok v => .ok v
      | .err e => .error (.convert e)
      | .panic => .error .panicked

/-- A query result of a backend: what each call of `next` gives until the end. -/
abbrev Fetched := List (Except RowErr BRow)

/-- `vec_from_backend_rows`, db/connmethods.rs:164-173: fetch all rows and copy their values. -/
def vecFromRows (columns : List SqlType) : Fetched → Except RowErr (List (List SqlVal))
  | [] => .ok []
  | .error e :: _ => .error e
  | .ok row :: rest =>
    match vecRowNew row columns with
    | .error e => .error e
    | .ok vals =>
      match vecFromRows columns rest with
      | .error e => .error e
      | .ok more => .ok (vals :: more)

/-- `mapped(f)` and `collect()`, db/connmethods.rs:115-147: convert every row, until the first
error. -/
def mapRows {β : Type} (f : BRow → Except RowErr β) : Fetched → Except RowErr (List β)
  | [] => .ok []
  | .error e :: _ => .error e
  | .ok row :: rest =>
    match f row with
    | .error e => .error e
    | .ok b =>
      match mapRows f rest with
      | .error e => .error e
      | .ok bs => .ok (b :: bs)

end Butane
