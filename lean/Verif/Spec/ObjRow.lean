/-
What it means that an object and a row correspond.
-/
import Verif.Model.ObjRow
import Verif.Spec.Convert

namespace Butane.Spec
open Butane

/-- Every field that is a column has a value with a stored form. -/
def AllProper : (fs : List TField) → ObjVals fs → Prop
  | [], _ => True
  | ⟨_, _, none⟩ :: fs, (_, os) => AllProper fs os
  | ⟨_, _, some t⟩ :: fs, (x, os) => Proper t x ∧ AllProper fs os

/-- The objects have the same value in every field that is a column. -/
def SameFields : (fs : List TField) → ObjVals fs → ObjVals fs → Prop
  | [], _, _ => True
  | ⟨_, _, none⟩ :: fs, (_, os), (_, os') => SameFields fs os os'
  | ⟨_, _, some t⟩ :: fs, (x, os), (y, os') => SameField t x y ∧ SameFields fs os os'

/-- The objects are equal in every field that is a column. -/
def EqualFields : (fs : List TField) → ObjVals fs → ObjVals fs → Prop
  | [], _, _ => True
  | ⟨_, _, none⟩ :: fs, (_, os), (_, os') => EqualFields fs os os'
  | ⟨_, _, some t⟩ :: fs, (x, os), (y, os') => x = y ∧ EqualFields fs os os'

/-- No field that is a column holds a NaN. -/
def NoNaNField : (t : FieldTy) → t.Val → Prop
  | .f64, x => x.isNaN = false
  | .f32, x => x.isNaN = false
  | .newtype t, x => NoNaNField t x
  | .autoPk t, x => ∀ y ∈ x, NoNaNField t y
  | .option t, x => ∀ y ∈ x, NoNaNField t y
  | .fkey _, k => ¬ IsNaN k
  | .bool, _ | .i64, _ | .i32, _ | .u32, _ | .u16, _ | .i16, _ | .u8, _
  | .i8, _ | .string, _ | .bytes, _ | .uuid, _ | .json _, _ | .date, _
  | .timestamp, _ | .dateTimeUtc, _ | .enum_ _, _ => True

/-- No field that is a column holds a NaN. -/
def NoNaNs : (fs : List TField) → ObjVals fs → Prop
  | [], _ => True
  | ⟨_, _, none⟩ :: fs, (_, os) => NoNaNs fs os
  | ⟨_, _, some t⟩ :: fs, (x, os) => NoNaNField t x ∧ NoNaNs fs os

/-- The SQLite row holds in the column what the column holds after the value was written. -/
def SqliteHolds (c : TextCodecs) (row : String → SqliteVal) (col : String × SqlType) (v : SqlVal) :
    Prop :=
  ∃ ty a, sqliteType col.2 = some ty ∧ toSqlite c v = .ok a ∧ ColumnHolds ty a (row col.1)

/-- The PostgreSQL row holds in the column the value sent. -/
def PgHolds (row : String → PgVal) (col : String × SqlType) (v : SqlVal) : Prop :=
  toPg (pgType col.2) v = .ok (row col.1)

/-- The columns of automatic keys hold the object's key (the database made it, and it was put
into the object, C20).  `Holds col v` says that the row holds `v` in that column. -/
def AutoHolds (Holds : String × SqlType → SqlVal → Prop) : (fs : List TField) → ObjVals fs → Prop
  | [], _ => True
  | ⟨n, _, some (.autoPk t)⟩ :: fs, (x, os) =>
    (∃ y v, x = some y ∧ t.toSql y = .ok v ∧ Holds (n, t.sqltype) v) ∧ AutoHolds Holds fs os
  | _ :: fs, (_, os) => AutoHolds Holds fs os

/-- The value is a time stamp with a fraction of a microsecond. -/
def SubMicro : SqlVal → Prop
  | .timestamp t => t % 1000 ≠ 0
  | _ => False

/-- The field does not hold a time stamp with a fraction of a microsecond. -/
def WholeMicros : (t : FieldTy) → t.Val → Prop
  | .timestamp, x => x % 1000 = 0
  | .dateTimeUtc, x => x % 1000 = 0
  | .newtype t, x => WholeMicros t x
  | .autoPk t, x => ∀ y ∈ x, WholeMicros t y
  | .option t, x => ∀ y ∈ x, WholeMicros t y
  | .fkey _, k => ¬ SubMicro k
  | .bool, _ | .i64, _ | .i32, _ | .u32, _ | .u16, _ | .i16, _ | .u8, _ | .f64, _ | .f32, _
  | .i8, _ | .string, _ | .bytes, _ | .uuid, _ | .json _, _ | .date, _ | .enum_ _, _ => True

/-- No field that is a column holds a time stamp with a fraction of a microsecond. -/
def AllWholeMicros : (fs : List TField) → ObjVals fs → Prop
  | [], _ => True
  | ⟨_, _, none⟩ :: fs, (_, os) => AllWholeMicros fs os
  | ⟨_, _, some t⟩ :: fs, (x, os) => WholeMicros t x ∧ AllWholeMicros fs os

end Butane.Spec
