/-
Objects with typed fields and rows.
Models butane_core/src/codegen/dbobj.rs: the generated `COLUMNS`, `non_auto_values` and
`from_row`, for structs with fields of any of the types of Model/Convert.lean.
-/
import Verif.Model.Convert

namespace Butane

/-- A struct field: its name and type; `none` is `Many<T>`, which is not a column
(`is_row_field`, codegen/mod.rs:426-428). -/
structure TField where
  name : String
  pkAttr : Bool
  ty : Option FieldTy

namespace TField

/-- The Rust values of the field.  A `Many` has no value here (Model/Many.lean). -/
@[reducible] def Val (f : TField) : Type :=
  match f.ty with
  | some t => t.Val
  | none => Unit

/-- `is_auto`, codegen/mod.rs:363-365. -/
def isAuto (f : TField) : Bool :=
  match f.ty with
  | some (.autoPk _) => true
  | _ => false

end TField

/-- The values of the fields of a struct, in declaration order. -/
@[reducible] def ObjVals : List TField → Type
  | [] => Unit
  | f :: fs => f.Val × ObjVals fs

/-- `columns`, codegen/dbobj.rs:352-372: name and type of every field that is a column and
satisfies the predicate. -/
def tcolumns (keep : TField → Bool) : List TField → List (String × SqlType)
  | [] => []
  | f :: fs =>
    match f.ty with
    | some t => if keep f then (f.name, t.sqltype) :: tcolumns keep fs else tcolumns keep fs
    | none => tcolumns keep fs

/-- `push_values`, codegen/dbobj.rs:421-433: the value of every field that is a column, not
automatic, and satisfies the predicate. -/
def pushValues (keep : TField → Bool) : (fs : List TField) → ObjVals fs → Conv (List SqlVal)
  | [], _ => .ok []
  | ⟨n, p, none⟩ :: fs, (_, os) => pushValues keep fs os
  | ⟨n, p, some t⟩ :: fs, (x, os) =>
    if !(TField.mk n p (some t)).isAuto && keep ⟨n, p, some t⟩ then
      (t.toSql x).bind fun v => (pushValues keep fs os).bind fun vs => .ok (v :: vs)
    else pushValues keep fs os

/-- `rows_for_from`, codegen/dbobj.rs:330-351: every field that is a column reads the next
value of the row, asking for its type; a `Many` is new. `get` is `BackendRow::get`. -/
def readFields (parse : String → Option (Vector UInt8 16)) (get : Nat → SqlType → Conv SqlVal) :
    (fs : List TField) → Nat → Conv (ObjVals fs)
  | [], _ => .ok ()
  | ⟨_, _, none⟩ :: fs, i => (readFields parse get fs i).bind fun os => .ok ((), os)
  | ⟨_, _, some t⟩ :: fs, i =>
    (get i t.sqltype).bind fun v =>
      (t.fromSql parse v).bind fun x =>
        (readFields parse get fs (i + 1)).bind fun os => .ok (x, os)

/-- `from_row`, codegen/dbobj.rs:206-213; `none` is `BoundsError`. -/
def tfromRow (parse : String → Option (Vector UInt8 16)) (len : Nat)
    (get : Nat → SqlType → Conv SqlVal) (fs : List TField) : Option (Conv (ObjVals fs)) :=
  if len ≠ (fs.filter fun f => f.ty.isSome).length then none
  else some (readFields parse get fs 0)

/-- `BackendRow::get` of a SQLite row, db/sqlite.rs:605-612; a column that does not exist is an
error of the library. -/
def sqliteGet (c : TextCodecs) (row : List SqliteVal) (i : Nat) (ty : SqlType) : Conv SqlVal :=
  match row[i]? with
  | some v => fromSqlite c v ty
  | none => .err .backendType

/-- `BackendRow::get` of a PostgreSQL row, db/pg.rs:548-555: the expected type is ignored. -/
def pgGet (row : List PgVal) (i : Nat) (_ : SqlType) : Conv SqlVal :=
  match row[i]? with
  | some v => .ok (fromPg v)
  | none => .err .backendType

end Butane
