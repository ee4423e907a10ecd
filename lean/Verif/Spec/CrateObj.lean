/-
Which Rust types the fields of a model have, and which models can be used with SQLite.
-/
import Verif.Spec.CrateDb
import Verif.Spec.SqliteObj

namespace Butane.Spec
open Butane Butane.Ddl Butane.Codegen

/-- `RustType ft items p ty`: in a crate with these items, the type written `p` is `ty`.  (Types with a
`FieldType` written by hand are left out; a type that is stored as JSON may be any with a `serde`
implementation.) -/
inductive RustType (ft : Features) (items : List Item) : Path → FieldTy → Prop where
  | simple {i ty} : (i.name, ty) ∈ [("bool", FieldTy.bool), ("i8", .i8), ("u8", .u8), ("i16", .i16),
      ("u16", .u16), ("i32", .i32), ("u32", .u32), ("i64", .i64), ("f32", .f32), ("f64", .f64)] →
      RustType ft items (.plain false [] i) ty
  | string {p} : p.last.name = "String" → Builtin ft p .text → RustType ft items p .string
  | bytes {p} : p.last.name = "Vec" → Builtin ft p .blob → RustType ft items p .bytes
  | uuid {p} : p.last.name = "Uuid" → Builtin ft p .blob → RustType ft items p .uuid
  | value {p} (j : JsonType) : p.last.name = "Value" → Builtin ft p .json → RustType ft items p (.json j)
  | date {p} : p.last.name = "NaiveDate" → Builtin ft p .date → RustType ft items p .date
  | naive {p} : p.last.name = "NaiveDateTime" → Builtin ft p .timestamp → RustType ft items p .timestamp
  | utc {p} : p.last.name = "DateTime" → Builtin ft p .timestamp → RustType ft items p .dateTimeUtc
  | map {p m i a b} (j : JsonType) : p = .app2 false m i a b → HasSqlType ft items p (.ty .json) →
      RustType ft items p (.json j)
  | option {p q ty} : WrittenAs "Option" p q → RustType ft items q ty → RustType ft items p (.option ty)
  | autoPk {p q ty} : WrittenAs "AutoPk" p q → RustType ft items q ty → RustType ft items p (.autoPk ty)
  | foreignKey {p q s f r ty} : WrittenAs "ForeignKey" p q → .model s ∈ items →
      q.last.name = s.ident.name → IsKey s f → f.ty = some r → RustType ft items r ty →
      RustType ft items p (.fkey ty)
  | alias {n i q ty} : .alias n q ∈ items → n.name = i.name → RustType ft items q ty →
      RustType ft items (.plain false [] i) ty
  | newtype {n i p ty} : .derived n (.newtype (some p)) ∈ items → n.name = i.name →
      Builtin ft p ty.sqltype → RustType ft items p ty → RustType ft items (.plain false [] i) (.newtype ty)
  | enum {n i} (variants : List String) : .derived n .simpleEnum ∈ items → n.name = i.name →
      RustType ft items (.plain false [] i) (.enum_ variants)
  | derived {n i} (j : JsonType) : .derived n .otherwise ∈ items → n.name = i.name → ft.json = true →
      RustType ft items (.plain false [] i) (.json j)

/-- The field of an object that a field of a struct declares. -/
structure IsField (ft : Features) (items : List Item) (f : Codegen.Field) (f' : TField) : Prop where
  name : f'.name = f.ident.name
  pkAttr : f'.pkAttr = true ↔ .pk ∈ f.attrs
  many : f'.ty = none ↔ ∃ q, IsMany f q
  type : ∀ ty, f'.ty = some ty → ∃ p, f.ty = some p ∧ RustType ft items p ty

/-- The objects a struct declares. -/
structure IsModel (ft : Features) (items : List Item) (s : Struct) (m : TModel) : Prop where
  table : m.table = tableOf s
  fields : AllMatch (IsField ft items) s.fields m.fields

/-- A model of a crate whose objects can be stored in SQLite: `Option` and `AutoPk` are not hidden
behind an alias; no field is written `r#id`; the name of the key needs no quotes; keys are neither
real nor optional, and automatic ones are integers. -/
structure UsableModel (ft : Features) (items : List Item) (k : SqliteConn) (s : Struct) (m : TModel)
    (pk : TField) : Prop where
  isModel : IsModel ft items s m
  option : ∀ f ∈ s.fields, ∀ p ty, f.ty = some p → RustType ft items p ty → MayBeAbsent ty →
    ∃ q, WrittenAs "Option" p q
  auto : ∀ f ∈ s.fields, ∀ p ty, f.ty = some p → RustType ft items p (.autoPk ty) →
    ∃ q, WrittenAs "AutoPk" p q
  noRaw : ∀ f ∈ s.fields, f.ident.name = "id" → f.ident = ⟨"id", false⟩
  covers : CoversReserved k.kw k.reserved
  excluded : k.reserved "excluded" = false
  table : m.table ≠ "excluded"
  key : m.pkField = some pk
  plain : PlainName k.reserved pk.name
  keyType : ∀ ty, pk.ty = some ty → sqliteType ty.sqltype ≠ some .real ∧ ¬ MayBeAbsent ty
  autoInt : ∀ ty, pk.ty = some (.autoPk ty) → ∃ I : IntType ty, IsIntType I

end Butane.Spec
