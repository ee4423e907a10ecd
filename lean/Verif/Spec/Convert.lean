/-
Which field values have a stored form, and what an SQLite column does with a value.
-/
import Verif.Model.Convert
import Verif.Spec.Schema

namespace Butane.Spec
open Butane

/-- The JSON representation of `x` exists and is read back as `x` (a property of the type's
`serde` implementation). -/
def JsonFaithful (j : JsonType) (x : j.Carrier) : Prop :=
  ∃ s, j.ser x = some s ∧ j.shape s = true ∧ j.de s = some x

/-- The value is something, not an absent value: the only absent values are `None` and a
foreign key that holds no key. -/
def Present : (t : FieldTy) → t.Val → Prop
  | .option t, some x => Present t x
  | .option _, none => False
  | .newtype t, x => Present t x
  | .autoPk t, some x => Present t x
  | .autoPk _, none => False
  | .fkey _, k => k ≠ .null
  | .bool, _ | .i64, _ | .i32, _ | .u32, _ | .u16, _ | .i16, _ | .u8, _ | .i8, _ | .f64, _
  | .f32, _ | .string, _ | .bytes, _ | .uuid, _ | .json _, _ | .date, _ | .timestamp, _
  | .dateTimeUtc, _ | .enum_ _, _ => True

/-- The values with a stored form of their own.  Excluded are: a NaN in an `f32`; a JSON value
its `serde` implementation does not reproduce; an enum with two variants of one name (Rust
has none); a key not generated yet; a foreign key not holding a value of the key type; and
`Some` of an absent value (as in `Option<Option<T>>`). -/
def Proper : (t : FieldTy) → t.Val → Prop
  | .f32, x => x.isNaN = false
  | .json j, x => JsonFaithful j x
  | .enum_ vs, _ => vs.Nodup
  | .newtype t, x => Proper t x
  | .autoPk t, some x => Proper t x
  | .autoPk _, none => False
  | .fkey t, k => k.sqltype = some t.sqltype
  | .option _, none => True
  | .option t, some x => Proper t x ∧ Present t x
  | .bool, _ | .i64, _ | .i32, _ | .u32, _ | .u16, _ | .i16, _ | .u8, _ | .i8, _ | .f64, _
  | .string, _ | .bytes, _ | .uuid, _ | .date, _ | .timestamp, _ | .dateTimeUtc, _ => True

/-- An integer field type: its least and greatest value and the number of a value. -/
structure IntType (t : FieldTy) where
  lo : Int
  hi : Int
  num : t.Val → Int

def intI8 : IntType .i8 := ⟨-128, 127, Int8.toInt⟩
def intU8 : IntType .u8 := ⟨0, 255, fun x => x.toNat⟩
def intI16 : IntType .i16 := ⟨-32768, 32767, Int16.toInt⟩
def intU16 : IntType .u16 := ⟨0, 65535, fun x => x.toNat⟩
def intI32 : IntType .i32 := ⟨-2147483648, 2147483647, Int32.toInt⟩
def intU32 : IntType .u32 := ⟨0, 4294967295, fun x => x.toNat⟩
def intI64 : IntType .i64 := ⟨-9223372036854775808, 9223372036854775807, Int64.toInt⟩

/-- The integer field types, each with its range. -/
inductive IsIntType : {t : FieldTy} → IntType t → Prop where
  | i8 : IsIntType intI8
  | u8 : IsIntType intU8
  | i16 : IsIntType intI16
  | u16 : IsIntType intU16
  | i32 : IsIntType intI32
  | u32 : IsIntType intU32
  | i64 : IsIntType intI64

/-- The integer in a database value. -/
def intOf : SqlVal → Option Int
  | .int i => some i.toInt
  | .bigInt i => some i.toInt
  | _ => none

/-- The printers and parsers of the libraries are inverse to each other. -/
structure Faithful (c : TextCodecs) : Prop where
  json : ∀ j, c.parseJson (c.printJson j) = some j
  date : ∀ d, c.parseDate (c.printDate d) = some d
  timestamp : ∀ t, c.parseTimestamp (c.printTimestamp t) = some t

/-- What a column of a STRICT SQLite table holds after a value of its own storage class was
written to it.  A NaN is stored as NULL; another real as a real of the same number (SQLite
may drop the sign of a zero). -/
inductive ColumnHolds : SqliteType → SqliteVal → SqliteVal → Prop where
  | null {ty} : ColumnHolds ty .null .null
  | integer (i) : ColumnHolds .integer (.integer i) (.integer i)
  | nan (r) : r.isNaN = true → ColumnHolds .real (.real r) .null
  | real (r r') : r.eq r' = true → ColumnHolds .real (.real r) (.real r')
  | text (s) : ColumnHolds .text (.text s) (.text s)
  | blob (b) : ColumnHolds .blob (.blob b) (.blob b)

/-- The value is a NaN. -/
def IsNaN : SqlVal → Prop
  | .real r => r.isNaN = true
  | _ => False

/-- The same field value: identical, or reals that are numerically equal. -/
def SameField : (t : FieldTy) → t.Val → t.Val → Prop
  | .f64, x, y => x = y ∨ x.eq y = true
  | .f32, x, y => x = y ∨ x.widen.eq y.widen = true
  | .newtype t, x, y => SameField t x y
  | .autoPk t, x, y => OptRel (SameField t) x y
  | .option t, x, y => OptRel (SameField t) x y
  | .fkey _, x, y => SameVal x y
  | .bool, x, y | .i64, x, y | .i32, x, y | .u32, x, y | .u16, x, y | .i16, x, y | .u8, x, y
  | .i8, x, y | .string, x, y | .bytes, x, y | .uuid, x, y | .json _, x, y | .date, x, y
  | .timestamp, x, y | .dateTimeUtc, x, y | .enum_ _, x, y => x = y

end Butane.Spec
