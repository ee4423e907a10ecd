/-
Serialization of the values that objects hold.
Models butane_core/src/autopk.rs, fkey.rs, many.rs and sqlval.rs as far as `serde` is
concerned: the implementations written out by hand, and those that `derive` makes.

The format is JSON, as with `serde_json`.  Text is not modelled: serialization ends in a
tree, and deserialization starts from one (`serde_json` prints and parses trees).
-/
import Verif.Model.FKey
import Verif.Model.Many
import Verif.Model.Convert

namespace Butane

/-- A JSON document.  An object is the list of its entries as they are written, so that a key
can be there twice. -/
inductive JVal where
  | null
  | bool (b : Bool)
  | int (i : Int)
  | float (bits : UInt64)
  | str (s : String)
  | arr (l : List JVal)
  | obj (l : List (String × JVal))

/-- What the libraries do that butane leaves this to: `serde_json` for numbers that are not
whole and for JSON values, chrono for dates and time stamps, uuid for identifiers, and for
the PostgreSQL type of a custom value custom.rs:140-246 (Model/PgTypeSer.lean). -/
structure SerdeLib where
  realVal : F64 → JVal
  readReal : JVal → Option F64
  real32Val : F32 → JVal
  readReal32 : JVal → Option F32
  dateVal : Int → JVal
  readDate : JVal → Option Int
  timeVal : Int → JVal
  readTime : JVal → Option Int
  utcVal : Int → JVal
  readUtc : JVal → Option Int
  jsonVal : String → JVal
  readJson : JVal → Option String
  uuidVal : Vector UInt8 16 → JVal
  readUuid : JVal → Option (Vector UInt8 16)
  pgTypeVal : String → JVal
  readPgType : JVal → Option String

namespace Serde

/-- A field of a struct with derived `Deserialize`: an entry that is there twice is an error
(`none`), others are ignored; `some none` when it is missing. -/
def field (name : String) (l : List (String × JVal)) : Option (Option JVal) :=
  match l.filter fun e => e.1 = name with
  | [] => some none
  | [e] => some (some e.2)
  | _ => none

/-- `Deserialize` of an integer type with the given bounds. -/
def readInt (lo hi : Int) : JVal → Option Int
  | .int i => if lo ≤ i ∧ i ≤ hi then some i else none
  | _ => none

/-- `Deserialize for u8`. -/
def readByte (j : JVal) : Option UInt8 := (readInt 0 255 j).map fun i => UInt8.ofNat i.toNat

/-- `Deserialize for Vec<u8>`: an array of numbers. -/
def readBytes : JVal → Option (List UInt8)
  | .arr l => l.mapM readByte
  | _ => none

/-- `Serialize for Vec<u8>`. -/
def bytesVal (b : List UInt8) : JVal := .arr (b.map fun x => .int x.toNat)

/-- `Deserialize for Option<T>`. -/
def readOption {α : Type} (de : JVal → Option α) : JVal → Option (Option α)
  | .null => some none
  | j => (de j).map some

/-- `derive(Serialize)` of `AutoPk`, autopk.rs:15-18. -/
def autoVal {α : Type} (ser : α → JVal) : Option α → JVal
  | none => .obj [("inner", .null)]
  | some x => .obj [("inner", ser x)]

/-- `derive(Deserialize)` of `AutoPk`, autopk.rs:15-18.  A missing `inner` is `None`, as for
every field whose type is an `Option`; the struct can also be written as an array. -/
def readAuto {α : Type} (de : JVal → Option α) : JVal → Option (Option α)
  | .obj l =>
    match field "inner" l with
    | none => none
    | some none => some none
    | some (some j) => readOption de j
  | .arr [j] => readOption de j
  | _ => none

/-- `derive(Serialize)` of `SqlVal`, sqlval.rs:77-94: a variant with data is an object with one
entry. -/
def sqlVal (lib : SerdeLib) : SqlVal → JVal
  | .null => .str "Null"
  | .bool b => .obj [("Bool", .bool b)]
  | .int i => .obj [("Int", .int i.toInt)]
  | .bigInt i => .obj [("BigInt", .int i.toInt)]
  | .real r => .obj [("Real", lib.realVal r)]
  | .text s => .obj [("Text", .str s)]
  | .blob b => .obj [("Blob", bytesVal b)]
  | .json j => .obj [("Json", lib.jsonVal j)]
  | .date d => .obj [("Date", lib.dateVal d)]
  | .timestamp t => .obj [("Timestamp", lib.timeVal t)]
  | .custom ty data =>
    .obj [("Custom", .obj [("Pg", .obj [("ty", lib.pgTypeVal ty), ("data", bytesVal data)])])]

/-- `derive(Deserialize)` of `SqlVal`, sqlval.rs:77-94, and of `SqlValCustom`, custom.rs:25-33.
The variant without data can also be written as an object with the entry `null`. -/
def readSqlVal (lib : SerdeLib) : JVal → Option SqlVal
  | .str s => if s = "Null" then some .null else none
  | .obj [(tag, j)] =>
    if tag = "Null" then match j with | .null => some .null | _ => none
    else if tag = "Bool" then match j with | .bool b => some (.bool b) | _ => none
    else if tag = "Int" then (readInt (-2147483648) 2147483647 j).map fun i => .int (Int32.ofInt i)
    else if tag = "BigInt" then
      (readInt (-9223372036854775808) 9223372036854775807 j).map fun i => .bigInt (Int64.ofInt i)
    else if tag = "Real" then (lib.readReal j).map .real
    else if tag = "Text" then match j with | .str s => some (.text s) | _ => none
    else if tag = "Blob" then (readBytes j).map .blob
    else if tag = "Json" then (lib.readJson j).map .json
    else if tag = "Date" then (lib.readDate j).map .date
    else if tag = "Timestamp" then (lib.readTime j).map .timestamp
    else if tag = "Custom" then
      match j with
      | .obj [(tag, .obj l)] =>
        if tag = "Pg" then
          match field "ty" l, field "data" l with
          | some (some t), some (some d) =>
            match lib.readPgType t, readBytes d with
            | some ty, some data => some (.custom ty data)
            | _, _ => none
          | _, _ => none
        else none
      | _ => none
    else none
  | _ => none

/-- `derive(Serialize)` of `SqlType`, lib.rs:371-397, and `SqlTypeCustom`, custom.rs:18-22. -/
def typeVal (lib : SerdeLib) : SqlType → JVal
  | .bool => .str "Bool"
  | .int => .str "Int"
  | .bigInt => .str "BigInt"
  | .real => .str "Real"
  | .text => .str "Text"
  | .date => .str "Date"
  | .timestamp => .str "Timestamp"
  | .blob => .str "Blob"
  | .json => .str "Json"
  | .custom ty => .obj [("Custom", .obj [("Pg", lib.pgTypeVal ty)])]

/-- `derive(Deserialize)` of `SqlType`, lib.rs:371-397.  (Variants without data written as
objects are left out.) -/
def readType (lib : SerdeLib) : JVal → Option SqlType
  | .str s =>
    if s = "Bool" then some .bool
    else if s = "Int" then some .int
    else if s = "BigInt" then some .bigInt
    else if s = "Real" then some .real
    else if s = "Text" then some .text
    else if s = "Date" then some .date
    else if s = "Timestamp" then some .timestamp
    else if s = "Blob" then some .blob
    else if s = "Json" then some .json
    else none
  | .obj [(tag, .obj [(tag', j)])] =>
    if tag = "Custom" ∧ tag' = "Pg" then (lib.readPgType j).map .custom else none
  | _ => none

/-- `derive(Serialize)` of `Many`, many.rs:27-42: `new_values`, `removed_values` and
`all_values` are skipped.  `ownerType` is the field `owner_type`, which `Many` of
Model/Many.lean leaves out. -/
def manyVal (lib : SerdeLib) (m : Many) (ownerType : SqlType) : JVal :=
  .obj [("item_table", .str m.itemTable),
    ("owner", match m.owner with | none => .null | some v => sqlVal lib v),
    ("owner_type", typeVal lib ownerType)]

/-- `derive(Deserialize)` of `Many`, many.rs:27-42: the skipped fields are empty.  (The struct
written as an array is left out.) -/
def readMany (lib : SerdeLib) : JVal → Option (Many × SqlType)
  | .obj l =>
    match field "item_table" l, field "owner" l, field "owner_type" l with
    | some (some (.str table)), some owner, some (some ty) =>
      match readOption (readSqlVal lib) (owner.getD .null), readType lib ty with
      | some o, some t => some (⟨table, o, [], [], none⟩, t)
      | _, _ => none
    | _, _, _ => none
  | _ => none

/-- `Serialize` and `Deserialize` of a key type. -/
structure KeySerde (K : Type) where
  ser : K → JVal
  de : JVal → Option K

/-- `Serialize for ForeignKey`, fkey.rs:214-226. -/
def fkeyVal {T K : Type} (ops : KeyOps T K) (ks : KeySerde K) (f : FKey T) : Ret JVal :=
  match f.pk ops with
  | .ok k => .ok (ks.ser k)
  | .err e => .err e
  | .panic => .panic

/-- `Deserialize for ForeignKey`, fkey.rs:227-239. -/
def readFkey {T K : Type} (ops : KeyOps T K) (ks : KeySerde K) (j : JVal) : Ret (FKey T) :=
  match ks.de j with
  | none => .err .decode
  | some k => FKey.fromPk ops k

/-- `Serialize` of the field types.  Integers, `bool` and `String`: `serde`; `AutoPk` and
`ForeignKey`: autopk.rs:15, fkey.rs:214-226; dates, identifiers and numbers that are not whole:
the libraries.  Enums and newtypes of the user: as `derive(Serialize)` makes them. -/
def fieldJson (lib : SerdeLib) (parseUuid : String → Option (Vector UInt8 16)) :
    (t : FieldTy) → t.Val → Ret JVal
  | .bool, x => .ok (.bool x)
  | .i64, x => .ok (.int x.toInt)
  | .i32, x => .ok (.int x.toInt)
  | .u32, x => .ok (.int x.toNat)
  | .u16, x => .ok (.int x.toNat)
  | .i16, x => .ok (.int x.toInt)
  | .u8, x => .ok (.int x.toNat)
  | .i8, x => .ok (.int x.toInt)
  | .f64, x => .ok (lib.realVal x)
  | .f32, x => .ok (lib.real32Val x)
  | .string, x => .ok (.str x)
  | .bytes, x => .ok (bytesVal x)
  | .uuid, x => .ok (lib.uuidVal x)
  | .json j, x =>
    match j.ser x with
    | some s => .ok (lib.jsonVal s)
    | none => .err .decode
  | .date, x => .ok (lib.dateVal x)
  | .timestamp, x => .ok (lib.timeVal x)
  | .dateTimeUtc, x => .ok (lib.utcVal x)
  | .enum_ vs, i => .ok (.str (vs.get i))
  | .newtype t, x => fieldJson lib parseUuid t x
  | .autoPk t, x =>
    match x with
    | none => .ok (.obj [("inner", .null)])
    | some y =>
      match fieldJson lib parseUuid t y with
      | .ok j => .ok (.obj [("inner", j)])
      | .err e => .err e
      | .panic => .panic
  | .fkey t, v =>
    match FieldTy.fromSql parseUuid t v with
    | .ok k => fieldJson lib parseUuid t k
    | _ => .panic
  | .option t, x =>
    match x with
    | none => .ok .null
    | some y => fieldJson lib parseUuid t y

/-- `Deserialize` of the field types, the counterpart of `fieldJson`; fkey.rs:227-239 for
`ForeignKey`, whose `from_pk` (fkey.rs:49-53) panics where `to_sql` of the key does. -/
def readField (lib : SerdeLib) : (t : FieldTy) → JVal → Ret t.Val
  | .bool, j => match j with | .bool b => .ok b | _ => .err .decode
  | .i64, j =>
    match readInt (-9223372036854775808) 9223372036854775807 j with
    | some i => .ok (Int64.ofInt i)
    | none => .err .decode
  | .i32, j =>
    match readInt (-2147483648) 2147483647 j with
    | some i => .ok (Int32.ofInt i)
    | none => .err .decode
  | .u32, j =>
    match readInt 0 4294967295 j with
    | some i => .ok (UInt32.ofNat i.toNat)
    | none => .err .decode
  | .u16, j =>
    match readInt 0 65535 j with
    | some i => .ok (UInt16.ofNat i.toNat)
    | none => .err .decode
  | .i16, j =>
    match readInt (-32768) 32767 j with
    | some i => .ok (Int16.ofInt i)
    | none => .err .decode
  | .u8, j =>
    match readByte j with
    | some i => .ok i
    | none => .err .decode
  | .i8, j =>
    match readInt (-128) 127 j with
    | some i => .ok (Int8.ofInt i)
    | none => .err .decode
  | .f64, j => match lib.readReal j with | some r => .ok r | none => .err .decode
  | .f32, j => match lib.readReal32 j with | some r => .ok r | none => .err .decode
  | .string, j => match j with | .str s => .ok s | _ => .err .decode
  | .bytes, j => match readBytes j with | some b => .ok b | none => .err .decode
  | .uuid, j => match lib.readUuid j with | some u => .ok u | none => .err .decode
  | .json ty, j =>
    match lib.readJson j with
    | some s => match ty.de s with | some x => .ok x | none => .err .decode
    | none => .err .decode
  | .date, j => match lib.readDate j with | some d => .ok d | none => .err .decode
  | .timestamp, j => match lib.readTime j with | some d => .ok d | none => .err .decode
  | .dateTimeUtc, j => match lib.readUtc j with | some d => .ok d | none => .err .decode
  | .enum_ vs, j =>
    match j with
    | .str s =>
      match FieldTy.variantOf vs s with
      | some i => .ok i
      | none => .err .decode
    | _ => .err .decode
  | .newtype t, j => readField lib t j
  | .autoPk t, j =>
    match j with
    | .obj l =>
      match field "inner" l with
      | none => .err .decode
      | some none => .ok none
      | some (some .null) => .ok none
      | some (some i) =>
        match readField lib t i with
        | .ok x => .ok (some x)
        | .err e => .err e
        | .panic => .panic
    | _ => .err .decode
  | .fkey t, j =>
    match readField lib t j with
    | .ok k =>
      match t.toSql k with
      | .ok v => .ok v
      | _ => .panic
    | .err e => .err e
    | .panic => .panic
  | .option t, j =>
    match j with
    | .null => .ok none
    | i =>
      match readField lib t i with
      | .ok x => .ok (some x)
      | .err e => .err e
      | .panic => .panic

end Serde
end Butane
