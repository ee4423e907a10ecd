/-
What a model means: the SQL type of a Rust type, and the table that belongs to a struct.
-/
import Verif.Model.Codegen
import Verif.Spec.Types

namespace Butane.Spec
open Butane Butane.Codegen

/-- How the generic types butane knows may be written. -/
def spellings : String → List (List String)
  | "Option" => [["Option"], ["std", "option", "Option"], ["core", "option", "Option"]]
  | "ForeignKey" => [["ForeignKey"], ["butane", "ForeignKey"], ["butane", "fkey", "ForeignKey"]]
  | "AutoPk" => [["AutoPk"], ["butane", "AutoPk"], ["butane", "autopk", "AutoPk"]]
  | "Many" => [["Many"], ["butane", "Many"], ["butane", "many", "Many"]]
  | _ => []

/-- The segments of a path as they are written. -/
def written (p : Path) : List String := p.mods.map (·.text) ++ [p.last.text]

/-- `p` is written as the type `n` of one argument, `q`. -/
def WrittenAs (n : String) (p q : Path) : Prop :=
  ∃ m i, p = .app1 false m i q ∧ written p ∈ spellings n

/-- What is assumed of the resolution of paths: it knows these spellings, and it takes no other
name for one of these types. -/
structure ResolverOk (resolve : Path → Option String) : Prop where
  known : ∀ n p, p.lead = false → written p ∈ spellings n → resolve p = some n
  sound : ∀ n p, n ∈ ["Option", "ForeignKey", "AutoPk", "Many"] → resolve p = some n →
    p.last.name = n

/-- The types that butane implements `FieldType` for, as they may be written, with their
`SQLTYPE` (butane_core/src/sqlval.rs:413-423,452,485,521,620,649,671; uuid.rs:43). -/
inductive Builtin (ft : Features) : Path → SqlType → Prop where
  | simple {i ty} : (i.name, ty) ∈ [("bool", SqlType.bool), ("i8", .int), ("u8", .int),
      ("i16", .int), ("u16", .int), ("i32", .int), ("u32", .bigInt), ("i64", .bigInt),
      ("f32", .real), ("f64", .real)] → Builtin ft (.plain false [] i) ty
  | string {l m i} : (Path.plain l m i).names = ["std", "string", "String"] ∨
      (l = false ∧ (Path.plain l m i).names = ["String"]) → Builtin ft (.plain l m i) .text
  | bytes {l m i j} : (Path.app1 l m i (.plain false [] j)).names = ["std", "vec", "Vec"] ∨
      (l = false ∧ (Path.app1 l m i (.plain false [] j)).names = ["Vec"]) → j.name = "u8" →
      Builtin ft (.app1 l m i (.plain false [] j)) .blob
  | json {m i} : ft.json = true →
      (Path.plain false m i).names ∈ [["Value"], ["serde_json", "Value"]] →
      Builtin ft (.plain false m i) .json
  | uuid {m i} : ft.uuid = true → (Path.plain false m i).names ∈ [["Uuid"], ["uuid", "Uuid"]] →
      Builtin ft (.plain false m i) .blob
  | date {m i} : ft.datetime = true → (Path.plain false m i).names ∈
      [["NaiveDate"], ["chrono", "NaiveDate"], ["chrono", "naive", "NaiveDate"]] →
      Builtin ft (.plain false m i) .date
  | naive {m i} : ft.datetime = true → (Path.plain false m i).names ∈
      [["NaiveDateTime"], ["chrono", "NaiveDateTime"], ["chrono", "naive", "NaiveDateTime"]] →
      Builtin ft (.plain false m i) .timestamp
  | utc {m i m' j} : ft.datetime = true →
      (Path.app1 false m i (.plain false m' j)).names ∈
        [["DateTime"], ["chrono", "DateTime"], ["chrono", "datetime", "DateTime"]] →
      (Path.plain false m' j).names ∈ [["Utc"], ["chrono", "Utc"], ["chrono", "offset", "Utc"]] →
      Builtin ft (.app1 false m i (.plain false m' j)) .timestamp

/-- Names that mean a built-in type. -/
def builtinNames : List String :=
  ["bool", "i8", "u8", "i16", "u16", "i32", "u32", "i64", "f32", "f64", "String", "Value", "Uuid",
   "NaiveDate", "NaiveDateTime"]

/-- The key of a model: the first field with `#[pk]`, or without any, the first one called `id`. -/
def IsKey (s : Struct) (f : Field) : Prop :=
  (∃ a b, s.fields = a ++ f :: b ∧ .pk ∈ f.attrs ∧ ∀ x ∈ a, .pk ∉ x.attrs) ∨
  (∃ a b, s.fields = a ++ f :: b ∧ (∀ x ∈ s.fields, .pk ∉ x.attrs) ∧ f.ident = ⟨"id", false⟩ ∧
    ∀ x ∈ a, x.ident ≠ ⟨"id", false⟩)

/-- The table of a model: the name given by the attribute, or that of the struct. -/
def tableOf (s : Struct) : String := (s.tables.getLast?).getD s.ident.name

/-- `HasSqlType ft items p ty`: in a crate with these items, `<p as FieldType>::SQLTYPE` is
`ty`. -/
inductive HasSqlType (ft : Features) (items : List Item) : Path → TypeIdentifier → Prop where
  | builtin {p ty} : Builtin ft p ty → HasSqlType ft items p (.ty ty)
  /-- string-keyed maps are stored as JSON (sqlval.rs:559-602) -/
  | map {m i a b} : ft.json = true →
      (Path.app2 false m i a b).names ∈ [["HashMap"], ["collections", "HashMap"],
        ["std", "collections", "HashMap"], ["BTreeMap"], ["collections", "BTreeMap"],
        ["std", "collections", "BTreeMap"]] →
      (∃ m' j, a = .plain false m' j ∧
        a.names ∈ [["String"], ["string", "String"], ["std", "string", "String"]]) →
      HasSqlType ft items (.app2 false m i a b) (.ty .json)
  /-- `Option<T>` is stored as `T` (sqlval.rs:729-733) -/
  | option {p q ty} : WrittenAs "Option" p q → HasSqlType ft items q ty → HasSqlType ft items p ty
  /-- `AutoPk<T>` is stored as `T` (autopk.rs:104) -/
  | autoPk {p q ty} : WrittenAs "AutoPk" p q → HasSqlType ft items q ty → HasSqlType ft items p ty
  /-- `ForeignKey<M>` is stored as the key of `M` (fkey.rs:180-184) -/
  | foreignKey {p q s f r ty} : WrittenAs "ForeignKey" p q → .model s ∈ items →
      q.last.name = s.ident.name → IsKey s f → f.ty = some r → HasSqlType ft items r ty →
      HasSqlType ft items p ty
  /-- an alias is the same type -/
  | alias {n i q ty} : .alias n q ∈ items → n.name = i.name → HasSqlType ft items q ty →
      HasSqlType ft items (.plain false [] i) ty
  /-- a type declared with `#[butane_type(ty)]`, whose `FieldType` the user implements as
  declared -/
  | typed {n i ty} : .typed n ty ∈ items → n.name = i.name →
      HasSqlType ft items (.plain false [] i) ty
  /-- a derived type: a newtype is stored as what it contains if that is built in -/
  | newtype {n i p ty} : .derived n (.newtype (some p)) ∈ items → n.name = i.name →
      Builtin ft p ty → HasSqlType ft items (.plain false [] i) (.ty ty)
  /-- an enum without fields as its name -/
  | enum {n i} : .derived n .simpleEnum ∈ items → n.name = i.name →
      HasSqlType ft items (.plain false [] i) (.ty .text)
  /-- everything else as JSON -/
  | derived {n i} : .derived n .otherwise ∈ items → n.name = i.name → ft.json = true →
      HasSqlType ft items (.plain false [] i) (.ty .json)

/-- The names a crate declares types with. -/
def typeNames : List Item → List String
  | [] => []
  | .model _ :: is => typeNames is
  | .alias n _ :: is => n.name :: typeNames is
  | .typed n _ :: is => n.name :: typeNames is
  | .derived n _ :: is => n.name :: typeNames is

/-- The models of a crate. -/
def modelsOf : List Item → List Struct
  | [] => []
  | .model s :: is => s :: modelsOf is
  | _ :: is => modelsOf is

/-- `f` is `Many<M>`, with `q` written for `M`. -/
def IsMany (f : Field) (q : Path) : Prop := ∃ p, f.ty = some p ∧ WrittenAs "Many" p q

/-- `f` refers to an object of the model written `q`. -/
def IsRef (f : Field) (q : Path) : Prop :=
  ∃ p, f.ty = some p ∧ (WrittenAs "ForeignKey" p q ∨
    ∃ r, WrittenAs "Option" p r ∧ WrittenAs "ForeignKey" r q)

open Classical in
/-- The fields that are stored in the row of an object. -/
noncomputable def rowFields (s : Struct) : List Field :=
  s.fields.filter fun f => decide (¬ ∃ q, IsMany f q)

open Classical in
/-- The fields that are stored in tables of their own. -/
noncomputable def manyFields (s : Struct) : List Field :=
  s.fields.filter fun f => decide (∃ q, IsMany f q)

/-- The tables a model needs: its own and one for each `Many`. -/
noncomputable def tablesOf (s : Struct) : List String :=
  tableOf s :: (manyFields s).map fun f => tableOf s ++ "_" ++ f.ident.name ++ "_Many"

/-- Names do not collide: neither those of structs, nor those of tables, nor those of declared
types, and no table has the name of another struct.  Declared types do not have the names of
built-in types, and derived types are not raw identifiers.  Names of fields, and of types being
identifiers, are as the compiler demands. -/
structure WellNamed (items : List Item) : Prop where
  structs : ((modelsOf items).map (·.ident.name)).Nodup
  tables : ((modelsOf items).flatMap tablesOf).Nodup
  cross : ∀ s ∈ modelsOf items, ∀ s' ∈ modelsOf items, s.ident.name = tableOf s' → s = s'
  types : (typeNames items).Nodup
  notBuiltin : ∀ n ∈ typeNames items, n ∉ builtinNames
  notRaw : ∀ n sh, .derived n sh ∈ items → n.raw = false
  idents : ∀ n ∈ typeNames items, '<' ∉ n.toList
  fields : ∀ s ∈ modelsOf items, (s.fields.map (·.ident.name)).Nodup

/-- The value of a literal. -/
def LitVal : Lit → SqlVal → Prop
  | .str s, v => v = .text s
  | .byteStr b, v => v = .blob b
  | .int (some i), v => v = .int i
  | .float r, v => v = .real r
  | .bool b, v => v = .bool b
  | _, _ => False

/-- The default a field declares. -/
inductive DefaultOf (f : Field) : Option SqlVal → Prop where
  | none : (∀ l, .default l ∉ f.attrs) → DefaultOf f none
  | some {a l b v} : f.attrs = a ++ .default (some l) :: b → (∀ l', .default l' ∉ a) → LitVal l v →
      DefaultOf f (some v)

/-- The crate is accepted by the compiler, as far as butane is concerned: every model has a key;
every field is a `Many` of a model of the crate, or has an SQL type and a well-formed default;
aliases and newtypes have an SQL type. -/
structure Typed (ft : Features) (items : List Item) : Prop where
  key : ∀ s ∈ modelsOf items, ∃ f, IsKey s f ∧ ∀ q, ¬ IsMany f q
  fields : ∀ s ∈ modelsOf items, ∀ f ∈ s.fields,
    (∃ q s', IsMany f q ∧ s' ∈ modelsOf items ∧ q.last.name = s'.ident.name) ∨
    (∃ p ty, f.ty = some p ∧ HasSqlType ft items p ty ∧ ∃ v, DefaultOf f v)
  aliases : ∀ n p, .alias n p ∈ items → ∃ ty, HasSqlType ft items p ty
  derived : ∀ n sh, .derived n sh ∈ items →
    (∃ p ty, sh = .newtype (some p) ∧ Builtin ft p ty) ∨ sh = .simpleEnum ∨
    (sh = .otherwise ∧ ft.json = true)

/-- The column of a table that belongs to a field of a model. -/
structure ColumnFor (ft : Features) (items : List Item) (s : Struct) (f : Field) (c : AColumn) :
    Prop where
  name : c.name = f.ident.name
  type : ∃ p ty, f.ty = some p ∧ denotes c.sqltype = .inl ty ∧
    ∀ ty', HasSqlType ft items p ty' ↔ ty' = ty
  nullable : c.nullable = true ↔ ∃ p q, f.ty = some p ∧ WrittenAs "Option" p q
  pk : c.pk = true ↔ IsKey s f
  auto : c.auto = true ↔ ∃ p q, f.ty = some p ∧ WrittenAs "AutoPk" p q
  unique : c.unique = true ↔ .unique ∈ f.attrs
  default : DefaultOf f c.default
  reference : ∀ q s' k, IsRef f q → s' ∈ modelsOf items → q.last.name = s'.ident.name →
    IsKey s' k → c.reference = some (.literal (tableOf s') k.ident.name)
  noReference : (∀ q, ¬ IsRef f q) → c.reference = none

/-- The link table of a `Many<M>` field, with `q` written for `M`: the key of the owner and the
key of the other object. -/
structure LinkFor (ft : Features) (items : List Item) (s : Struct) (f : Field) (q : Path)
    (t : ATable) : Prop where
  name : t.name = tableOf s ++ "_" ++ f.ident.name ++ "_Many"
  columns : ∃ owner has, t.columns = [owner, has] ∧ owner.name = "owner" ∧ has.name = "has" ∧
    (∀ k p, IsKey s k → k.ty = some p → owner.reference = some (.literal (tableOf s) k.ident.name) ∧
      ∃ ty, denotes owner.sqltype = .inl ty ∧ HasSqlType ft items p ty) ∧
    (∀ s' k p, s' ∈ modelsOf items → q.last.name = s'.ident.name → IsKey s' k → k.ty = some p →
      has.reference = some (.literal (tableOf s') k.ident.name) ∧
      ∃ ty, denotes has.sqltype = .inl ty ∧ HasSqlType ft items p ty) ∧
    owner.nullable = false ∧ has.nullable = false ∧ owner.pk = false ∧ has.pk = false ∧
    owner.auto = false ∧ has.auto = false ∧ owner.unique = false ∧ has.unique = false ∧
    owner.default = none ∧ has.default = none

end Butane.Spec
