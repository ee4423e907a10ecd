/-
Database types and values.
Models butane_core/src/lib.rs (SqlType) and butane_core/src/sqlval.rs (SqlVal).
-/
namespace Butane

/-- `f64`, by its 64 bits. -/
structure F64 where
  bits : UInt64
deriving DecidableEq, Repr

namespace F64
/-- Not-a-number: exponent all ones and a non-zero mantissa. -/
def isNaN (x : F64) : Bool := (x.bits &&& 0x7fffffffffffffff) > 0x7ff0000000000000
/-- Positive or negative zero. -/
def isZero (x : F64) : Bool := (x.bits &&& 0x7fffffffffffffff) == 0
/-- IEEE equality, i.e. Rust's `PartialEq for f64`. -/
def eq (x y : F64) : Bool :=
  !x.isNaN && !y.isNaN && (x.bits == y.bits || (x.isZero && y.isZero))
end F64

/-- `SqlType`, butane_core/src/lib.rs:372-397.  `Custom(SqlTypeCustom::Pg(ty))`
carries only the name of the PostgreSQL type here. -/
inductive SqlType where
  | bool | int | bigInt | real | text | blob | json | date | timestamp
  | custom (ty : String)
deriving DecidableEq, Repr

/-- `SqlVal`, butane_core/src/sqlval.rs:77-94.  A JSON value is represented by its
canonical text, a date by its day number, a timestamp by its nanosecond count, a
custom value by type name and bytes (all four are opaque to the modelled code). -/
inductive SqlVal where
  | null
  | bool (b : Bool)
  | int (i : Int32)
  | bigInt (i : Int64)
  | real (r : F64)
  | text (s : String)
  | blob (b : List UInt8)
  | json (canon : String)
  | date (day : Int)
  | timestamp (nanos : Int)
  | custom (ty : String) (data : List UInt8)
deriving DecidableEq, Repr

namespace SqlVal

/-- `#[derive(PartialEq)]` of `SqlVal`, sqlval.rs:77: structural, but reals compare
by IEEE equality. -/
def beq : SqlVal → SqlVal → Bool
  | .null, .null => true
  | .bool a, .bool b => a == b
  | .int a, .int b => a == b
  | .bigInt a, .bigInt b => a == b
  | .real a, .real b => a.eq b
  | .text a, .text b => a == b
  | .blob a, .blob b => a == b
  | .json a, .json b => a == b
  | .date a, .date b => a == b
  | .timestamp a, .timestamp b => a == b
  | .custom t a, .custom u b => t == u && a == b
  | _, _ => false

/-- `SqlVal::sqltype`, sqlval.rs:165-185. -/
def sqltype : SqlVal → Option SqlType
  | .null => none
  | .bool _ => some .bool
  | .int _ => some .int
  | .bigInt _ => some .bigInt
  | .real _ => some .real
  | .text _ => some .text
  | .blob _ => some .blob
  | .json _ => some .json
  | .date _ => some .date
  | .timestamp _ => some .timestamp
  | .custom ty _ => some (.custom ty)

/-- `SqlVal::is_compatible`, sqlval.rs:157-162. -/
def isCompatible (v : SqlVal) (t : SqlType) (nullAllowed : Bool) : Bool :=
  match v.sqltype with
  | none => nullAllowed
  | some ty => t == ty

end SqlVal
end Butane
