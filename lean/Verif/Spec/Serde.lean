/-
When values are supposed to survive serialization.
-/
import Verif.Model.Serde

namespace Butane.Spec
open Butane

/-- The libraries read back what they wrote for this database value.  (They do for dates and
time stamps, and for finite numbers; a number that is not finite is written as `null`.) -/
def LibKeeps (lib : SerdeLib) : SqlVal → Prop
  | .real r => lib.readReal (lib.realVal r) = some r
  | .json j => lib.readJson (lib.jsonVal j) = some j
  | .date d => lib.readDate (lib.dateVal d) = some d
  | .timestamp t => lib.readTime (lib.timeVal t) = some t
  | .custom ty _ => lib.readPgType (lib.pgTypeVal ty) = some ty
  | _ => True

/-- The same for the types of columns. -/
def LibKeepsType (lib : SerdeLib) : SqlType → Prop
  | .custom ty => lib.readPgType (lib.pgTypeVal ty) = some ty
  | _ => True

/-- The same for the values of fields.  The variants of an enum have different names.  The
value of a foreign key is one that its key type is stored as.  What is inside an option is not
itself written as `null`. -/
def FieldKept (lib : SerdeLib) (parseUuid : String → Option (Vector UInt8 16)) :
    (t : FieldTy) → t.Val → Prop
  | .f64, x => lib.readReal (lib.realVal x) = some x
  | .f32, x => lib.readReal32 (lib.real32Val x) = some x
  | .uuid, x => lib.readUuid (lib.uuidVal x) = some x
  | .date, x => lib.readDate (lib.dateVal x) = some x
  | .timestamp, x => lib.readTime (lib.timeVal x) = some x
  | .dateTimeUtc, x => lib.readUtc (lib.utcVal x) = some x
  | .json j, x => ∃ s, j.ser x = some s ∧ lib.readJson (lib.jsonVal s) = some s ∧ j.de s = some x
  | .enum_ vs, _ => vs.Nodup
  | .newtype t, x => FieldKept lib parseUuid t x
  | .autoPk t, x => ∀ y, x = some y →
      FieldKept lib parseUuid t y ∧ Serde.fieldJson lib parseUuid t y ≠ .ok .null
  | .fkey t, v => ∃ k, t.fromSql parseUuid v = .ok k ∧ t.toSql k = .ok v ∧ FieldKept lib parseUuid t k
  | .option t, x => ∀ y, x = some y →
      FieldKept lib parseUuid t y ∧ Serde.fieldJson lib parseUuid t y ≠ .ok .null
  | _, _ => True

/-- A key type survives serialization, and is not written as `null`. -/
def KeyKept {K : Type} (ks : Serde.KeySerde K) : Prop :=
  ∀ k, ks.de (ks.ser k) = some k

end Butane.Spec
