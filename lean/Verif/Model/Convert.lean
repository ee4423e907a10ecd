/-
Conversion between Rust values and database values.
Models butane_core/src/sqlval.rs (ToSql, FromSql, FieldType), autopk.rs, uuid.rs, fkey.rs
(the conversions), butane_codegen/src/lib.rs (`derive(FieldType)`), and the conversion to
and from the values of the SQLite library, db/sqlite.rs.
-/
import Verif.Model.FKey

namespace Butane

/-- `f32`, by its 32 bits. -/
structure F32 where
  bits : UInt32
deriving DecidableEq, Repr

namespace F32
/-- Not-a-number: exponent all ones and a non-zero mantissa. -/
def isNaN (x : F32) : Bool := (x.bits &&& 0x7fffffff) > 0x7f800000
end F32

/-- `n / 2^k`, rounded to the nearest integer and to the even one of two equally near. -/
def roundShift (n k : Nat) : Nat :=
  let q := n / 2 ^ k
  let r := n % 2 ^ k
  if 2 ^ k < 2 * r ∨ (2 ^ k = 2 * r ∧ q % 2 = 1) then q + 1 else q

/-- `f64::from(f32)`, which `impl_prim_sql!` calls as `self.into()`, sqlval.rs:398-404.
IEEE 754: the same number (a NaN keeps its payload). -/
def F32.widen (x : F32) : F64 :=
  let n := x.bits.toNat
  let s := n / 2 ^ 31
  let e := n / 2 ^ 23 % 2 ^ 8
  let m := n % 2 ^ 23
  let body :=
    if e = 255 then 2047 * 2 ^ 52 + m * 2 ^ 29
    else if e = 0 then
      if m = 0 then 0
      else (Nat.log2 m + 874) * 2 ^ 52 + (m - 2 ^ Nat.log2 m) * 2 ^ (52 - Nat.log2 m)
    else (e + 896) * 2 ^ 52 + m * 2 ^ 29
  ⟨UInt64.ofNat (s * 2 ^ 63 + body)⟩

/-- `f64 as f32`, which `impl_basic_from_sql!` uses, sqlval.rs:366-385.  IEEE 754: the nearest
`f32`, infinite on overflow; a NaN stays a NaN (which one is not specified by Rust). -/
def F64.narrow (x : F64) : F32 :=
  let n := x.bits.toNat
  let s := n / 2 ^ 63
  let e := n / 2 ^ 52 % 2 ^ 11
  let m := n % 2 ^ 52
  let body :=
    if e = 2047 then if m = 0 then 255 * 2 ^ 23 else 255 * 2 ^ 23 + 2 ^ 22
    else if 897 ≤ e then min ((e - 896) * 2 ^ 23 + roundShift m 29) (255 * 2 ^ 23)
    else if e = 0 then roundShift m 925
    else roundShift (m + 2 ^ 52) (926 - e)
  ⟨UInt32.ofNat (s * 2 ^ 31 + body)⟩

/-- What converting a value can end in besides a value: `Error::CannotConvertSqlVal`,
`Error::UnknownEnumVariant`, the errors of the parsers and of rusqlite's accessors. -/
inductive ConvErr where
  | cannotConvert | unknownVariant | parse | backendType | custom
deriving DecidableEq, Repr

/-- How a conversion ends. -/
inductive Conv (α : Type) where
  | ok (a : α)
  | err (e : ConvErr)
  | panic
deriving DecidableEq, Repr

/-- Continue with the value (`?`; a panic unwinds). -/
def Conv.bind {α β : Type} (x : Conv α) (f : α → Conv β) : Conv β :=
  match x with
  | .ok a => f a
  | .err e => .err e
  | .panic => .panic

/-- A Rust type stored as JSON by way of `serde`: a derived type
(butane_codegen/src/lib.rs:436-475), `serde_json::Value` itself, or a map with string keys
(sqlval.rs:520-611).  `ser` is `serde_json::to_value` and `de` is `deserialize` (both end in
`unwrap`); `shape` is the test that the value is an object, which the maps make before
deserializing.  JSON values are represented by their canonical text. -/
structure JsonType where
  Carrier : Type
  ser : Carrier → Option String
  de : String → Option Carrier
  shape : String → Bool

/-- The types a field can have: those with an implementation of `FieldType`.
`enum_` is an enum without data, given by the names of its variants; `newtype` a derived
struct of one primitive field; `fkey` is `ForeignKey<T>` for a `T` with that key type. -/
inductive FieldTy : Type 1 where
  | bool | i64 | i32 | u32 | u16 | i16 | u8 | i8 | f64 | f32
  | string | bytes | uuid
  | json (j : JsonType)
  | date | timestamp | dateTimeUtc
  | enum_ (variants : List String)
  | newtype (t : FieldTy)
  | autoPk (t : FieldTy)
  | fkey (t : FieldTy)
  | option (t : FieldTy)

namespace FieldTy

/-- The Rust values of the type.  A date is a day number and a time stamp a nanosecond count
(as in `SqlVal`), both also for `DateTime<Utc>`, whose `naive_utc`/`and_utc` only change the
type.  A foreign key is the key value it holds (`valpk`; a key held as a loaded object
is converted by `ensure_valpk`, see Model/FKey.lean). -/
@[reducible] def Val : FieldTy → Type
  | .bool => Bool
  | .i64 => Int64
  | .i32 => Int32
  | .u32 => UInt32
  | .u16 => UInt16
  | .i16 => Int16
  | .u8 => UInt8
  | .i8 => Int8
  | .f64 => F64
  | .f32 => F32
  | .string => String
  | .bytes => List UInt8
  | .uuid => Vector UInt8 16
  | .json j => j.Carrier
  | .date => Int
  | .timestamp => Int
  | .dateTimeUtc => Int
  | .enum_ vs => Fin vs.length
  | .newtype t => t.Val
  | .autoPk t => Option t.Val
  | .fkey _ => SqlVal
  | .option t => Option t.Val

/-- `FieldType::SQLTYPE`: sqlval.rs:404-423, 454, 486, 518, 559, 600, 632, 661, 681, 735;
uuid.rs:42; autopk.rs:102; fkey.rs:183; butane_codegen/src/lib.rs:350, 428, 471 (for a newtype
the type of the field, codegen/mod.rs:528). -/
def sqltype : FieldTy → SqlType
  | .bool => .bool
  | .i64 => .bigInt
  | .i32 => .int
  | .u32 => .bigInt
  | .u16 => .int
  | .i16 => .int
  | .u8 => .int
  | .i8 => .int
  | .f64 => .real
  | .f32 => .real
  | .string => .text
  | .bytes => .blob
  | .uuid => .blob
  | .json _ => .json
  | .date => .date
  | .timestamp => .timestamp
  | .dateTimeUtc => .timestamp
  | .enum_ _ => .text
  | .newtype t => t.sqltype
  | .autoPk t => t.sqltype
  | .fkey t => t.sqltype
  | .option t => t.sqltype

/-- `ToSql::to_sql`: sqlval.rs:387-411 (primitives, widened by `into`), 442-452, 474-484,
505-516, 526-531, 568-573, 615-626, 646-657, 667-678, 695-721; uuid.rs:11-18;
autopk.rs:72-82; fkey.rs:165-179; butane_codegen/src/lib.rs:333-341, 387-392, 408-416, 449-457.
`to_sql_ref` and `into_sql` give the same value and are not distinguished. -/
def toSql : (t : FieldTy) → t.Val → Conv SqlVal
  | .bool, x => .ok (.bool x)
  | .i64, x => .ok (.bigInt x)
  | .i32, x => .ok (.int x)
  | .u32, x => .ok (.bigInt x.toUInt64.toInt64)
  | .u16, x => .ok (.int x.toUInt32.toInt32)
  | .i16, x => .ok (.int x.toInt32)
  | .u8, x => .ok (.int x.toUInt32.toInt32)
  | .i8, x => .ok (.int x.toInt32)
  | .f64, x => .ok (.real x)
  | .f32, x => .ok (.real x.widen)
  | .string, x => .ok (.text x)
  | .bytes, x => .ok (.blob x)
  | .uuid, x => .ok (.blob x.toList)
  | .json j, x =>
    match j.ser x with
    | some s => .ok (.json s)
    | none => .panic
  | .date, x => .ok (.date x)
  | .timestamp, x => .ok (.timestamp x)
  | .dateTimeUtc, x => .ok (.timestamp x)
  | .enum_ vs, i => .ok (.text (vs.get i))
  | .newtype t, x => t.toSql x
  | .autoPk t, x =>
    match x with
    | some y => t.toSql y
    | none => .panic
  | .fkey _, x => .ok x
  | .option t, x =>
    match x with
    | none => .ok .null
    | some y => t.toSql y

/-- `Uuid::from_slice`, of the uuid library: exactly 16 bytes. -/
def uuidFromSlice (b : List UInt8) : Option (Vector UInt8 16) :=
  if h : b.length = 16 then some ⟨b.toArray, by simpa using h⟩ else none

/-- `from_string_for_butane`, butane_codegen/src/lib.rs:385-408: the arms in order. -/
def variantOf : (vs : List String) → String → Option (Fin vs.length)
  | [], _ => none
  | v :: vs, s => if v = s then some 0 else (variantOf vs s).map Fin.succ

/-- `FromSql::from_sql_ref`: sqlval.rs:366-385 (`as`, which wraps integers), 425-440, 457-472,
489-503, 534-549, 576-591, 613, 637-644, 665, 722-732; uuid.rs:19-38; autopk.rs:49-69;
fkey.rs:187-197 (any value is accepted); butane_codegen/src/lib.rs:342-348, 417-424, 459-468.
`parseUuid` is `Uuid::parse_str` of the uuid library. -/
def fromSql (parseUuid : String → Option (Vector UInt8 16)) : (t : FieldTy) → SqlVal → Conv t.Val
  | .bool, .bool b => .ok b
  | .i64, .bigInt i => .ok i
  | .i32, .int i => .ok i
  | .u32, .bigInt i => .ok i.toUInt64.toUInt32
  | .u16, .int i => .ok i.toUInt32.toUInt16
  | .i16, .int i => .ok i.toInt16
  | .u8, .int i => .ok i.toUInt32.toUInt8
  | .i8, .int i => .ok i.toInt8
  | .f64, .real r => .ok r
  | .f32, .real r => .ok r.narrow
  | .string, .text s => .ok s
  | .bytes, .blob b => .ok b
  | .uuid, .blob b =>
    match uuidFromSlice b with
    | some u => .ok u
    | none => .err .cannotConvert
  | .uuid, .text s =>
    match parseUuid s with
    | some u => .ok u
    | none => .err .cannotConvert
  | .json j, .json s =>
    if j.shape s then
      match j.de s with
      | some x => .ok x
      | none => .panic
    else .err .cannotConvert
  | .date, .date d => .ok d
  | .timestamp, .timestamp t => .ok t
  | .dateTimeUtc, .timestamp t => .ok t
  | .enum_ vs, .text s =>
    match variantOf vs s with
    | some i => .ok i
    | none => .err .unknownVariant
  | .newtype t, v => fromSql parseUuid t v
  | .autoPk t, v => (fromSql parseUuid t v).bind fun x => .ok (some x)
  | .fkey _, v => .ok v
  | .option t, v =>
    if v = .null then .ok none else (fromSql parseUuid t v).bind fun x => .ok (some x)
  | _, _ => .err .cannotConvert

end FieldTy

/-- What `derive(FieldType)` is applied to: the fields of a struct or the variants of an enum
(each with whether it carries data).  `json` is the `serde` implementation of the type. -/
inductive DeriveInput : Type 1 where
  | tupleStruct (fields : List FieldTy) (json : JsonType)
  | otherStruct (json : JsonType)
  | enum_ (variants : List (String × Bool)) (json : JsonType)

/-- `get_primitive_sql_type`, codegen/mod.rs:528-600, as a test: the types it knows. -/
def FieldTy.isPrimitive : FieldTy → Bool
  | .bool | .i64 | .i32 | .u32 | .u16 | .i16 | .u8 | .i8 | .f64 | .f32
  | .string | .bytes | .uuid | .date | .timestamp | .dateTimeUtc => true
  | _ => false

/-- `derive_field_type_impl`, butane_codegen/src/lib.rs:290-318, and the start of
`derive_field_type_for_enum`, 357-365: which conversions are generated. -/
def derivedType : DeriveInput → FieldTy
  | .tupleStruct [t] j => if t.isPrimitive then .newtype t else .json j
  | .tupleStruct _ j => .json j
  | .otherStruct j => .json j
  | .enum_ vs j => if vs.any (·.2) then .json j else .enum_ (vs.map (·.1))

/-- A value of the SQLite library, `rusqlite::types::Value`. -/
inductive SqliteVal where
  | null
  | integer (i : Int64)
  | real (r : F64)
  | text (s : String)
  | blob (b : List UInt8)
deriving DecidableEq, Repr

/-- The parsers and printers of other libraries that the SQLite backend uses: `serde_json`
for JSON, `chrono` with `SQLITE_DATE_FORMAT` and `SQLITE_DT_FORMAT` (db/sqlite.rs:26-30). -/
structure TextCodecs where
  printJson : String → String
  parseJson : String → Option String
  printDate : Int → String
  parseDate : String → Option Int
  printTimestamp : Int → String
  parseTimestamp : String → Option Int

/-- `sqlvalref_to_sqlite`, db/sqlite.rs:513-541. -/
def toSqlite (c : TextCodecs) : SqlVal → Conv SqliteVal
  | .bool b => .ok (.integer (if b then 1 else 0))
  | .int i => .ok (.integer i.toInt64)
  | .bigInt i => .ok (.integer i)
  | .real r => .ok (.real r)
  | .text s => .ok (.text s)
  | .blob b => .ok (.blob b)
  | .json j => .ok (.text (c.printJson j))
  | .date d => .ok (.text (c.printDate d))
  | .timestamp t => .ok (.text (c.printTimestamp t))
  | .null => .ok .null
  | .custom _ _ => .panic

/-- rusqlite's `ValueRef::as_i64`. -/
def SqliteVal.asI64 : SqliteVal → Conv Int64
  | .integer i => .ok i
  | _ => .err .backendType
/-- rusqlite's `ValueRef::as_f64`. -/
def SqliteVal.asF64 : SqliteVal → Conv F64
  | .real r => .ok r
  | _ => .err .backendType
/-- rusqlite's `ValueRef::as_str`. -/
def SqliteVal.asStr : SqliteVal → Conv String
  | .text s => .ok s
  | _ => .err .backendType
/-- rusqlite's `ValueRef::as_blob`. -/
def SqliteVal.asBlob : SqliteVal → Conv (List UInt8)
  | .blob b => .ok b
  | _ => .err .backendType

/-- The result of a parser. -/
def parsed {α : Type} : Option α → Conv α
  | some x => .ok x
  | none => .err .parse

/-- `sql_valref_from_rusqlite`, db/sqlite.rs:631-660: the value read for a column of the
given type. -/
def fromSqlite (c : TextCodecs) (v : SqliteVal) (ty : SqlType) : Conv SqlVal :=
  if v = .null then .ok .null
  else
    match ty with
    | .bool => v.asI64.bind fun i => .ok (.bool (decide (i ≠ 0)))
    | .int => v.asI64.bind fun i => .ok (.int i.toInt32)
    | .bigInt => v.asI64.bind fun i => .ok (.bigInt i)
    | .real => v.asF64.bind fun r => .ok (.real r)
    | .text => v.asStr.bind fun s => .ok (.text s)
    | .json => v.asStr.bind fun s => (parsed (c.parseJson s)).bind fun j => .ok (.json j)
    | .date => v.asStr.bind fun s => (parsed (c.parseDate s)).bind fun d => .ok (.date d)
    | .timestamp =>
      v.asStr.bind fun s => (parsed (c.parseTimestamp s)).bind fun t => .ok (.timestamp t)
    | .blob => v.asBlob.bind fun b => .ok (.blob b)
    | .custom _ => .err .custom

/-- The column types of STRICT SQLite tables that butane uses. -/
inductive SqliteType where
  | integer | real | text | blob
deriving DecidableEq, Repr

/-- How the type is written. -/
def SqliteType.name : SqliteType → String
  | .integer => "INTEGER"
  | .real => "REAL"
  | .text => "TEXT"
  | .blob => "BLOB"

/-- `sqltype`, db/sqlite.rs:766-783; `none` where it panics. -/
def sqliteType : SqlType → Option SqliteType
  | .bool => some .integer
  | .int => some .integer
  | .bigInt => some .integer
  | .real => some .real
  | .text => some .text
  | .blob => some .blob
  | .json => some .text
  | .date => some .text
  | .timestamp => some .text
  | .custom _ => none

/-! ### PostgreSQL -/

/-- The column types of PostgreSQL that butane uses; `other` is any other type, by name. -/
inductive PgType where
  | bool | int4 | int8 | float8 | text | bytea | jsonb | date | timestamp
  | other (name : String)
deriving DecidableEq, Repr

/-- The column types `col_sqltype` writes, db/pg.rs:699-730 (a custom type by its name, taken to
be none of the others; `SERIAL` is an `INTEGER` and `BIGSERIAL` a `BIGINT`). -/
def pgType : SqlType → PgType
  | .bool => .bool
  | .int => .int4
  | .bigInt => .int8
  | .real => .float8
  | .text => .text
  | .blob => .bytea
  | .json => .jsonb
  | .date => .date
  | .timestamp => .timestamp
  | .custom n => .other n

/-- A value on the wire to or from PostgreSQL.  A time stamp is in microseconds. -/
inductive PgVal where
  | null
  | bool (b : Bool)
  | int4 (i : Int32)
  | int8 (i : Int64)
  | float8 (r : F64)
  | text (s : String)
  | bytea (b : List UInt8)
  | jsonb (canon : String)
  | date (day : Int)
  | timestamp (micros : Int)
  | other (ty : String) (data : List UInt8)
deriving DecidableEq, Repr

/-- `impl postgres::types::ToSql for SqlValRef`, db/pg.rs:431-464, with `check_type_match`,
475-486: the value sent for a parameter of type `ty`.  The library's conversion of a Rust value
is an error unless the parameter has the matching type (text is also accepted by other string
types, which butane never creates).  A time stamp is cut to microseconds by the library. -/
def toPg (ty : PgType) : SqlVal → Conv PgVal
  | .null => .ok .null
  | .bool b => if ty = .bool then .ok (.bool b) else .err .backendType
  | .int i => if ty = .int4 then .ok (.int4 i) else .err .backendType
  | .bigInt i => if ty = .int8 then .ok (.int8 i) else .err .backendType
  | .real r => if ty = .float8 then .ok (.float8 r) else .err .backendType
  | .text s => if ty = .text then .ok (.text s) else .err .backendType
  | .blob b => if ty = .bytea then .ok (.bytea b) else .err .backendType
  | .json j => if ty = .jsonb then .ok (.jsonb j) else .err .backendType
  | .date d => if ty = .date then .ok (.date d) else .err .backendType
  | .timestamp t => if ty = .timestamp then .ok (.timestamp (t.tdiv 1000)) else .err .backendType
  | .custom n d => if ty = .other n then .ok (.other n d) else .err .backendType

/-- `impl postgres::types::FromSql for SqlValRef`, db/pg.rs:488-521, which
`BackendRow::get` uses without looking at the expected type, db/pg.rs:548-555. -/
def fromPg : PgVal → SqlVal
  | .null => .null
  | .bool b => .bool b
  | .int4 i => .int i
  | .int8 i => .bigInt i
  | .float8 r => .real r
  | .text s => .text s
  | .bytea b => .blob b
  | .jsonb j => .json j
  | .date d => .date d
  | .timestamp t => .timestamp (t * 1000)
  | .other n d => .custom n d

end Butane
