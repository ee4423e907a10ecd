/-
The `#[model]` macro: what it records for migrations, and the constants of the code it generates.
Models butane_core/src/codegen/mod.rs, codegen/migration.rs, codegen/dbobj.rs and the
`FieldType` derive of butane_codegen/src/lib.rs, on syntax trees.

Simplified: structs have named fields; generic arguments occur only in the last segment of a
path; what is recorded is a schema (`ADB`), whose storage in files is modelled in
Model/MigStore.lean.  `none` is a panic of the macro, which the compiler reports as an error.
-/
import Verif.Model.Adb

namespace Butane.Codegen
open Butane

/-- The cargo features that add types. -/
structure Features where
  json : Bool
  uuid : Bool
  datetime : Bool
deriving DecidableEq, Repr

/-- `proc_macro2::Ident`; `raw` is the prefix `r#`, which `strip_raw` removes. -/
structure Ident where
  name : String
  raw : Bool
deriving DecidableEq, Repr

/-- `Ident::to_string`. -/
def Ident.text (i : Ident) : String := if i.raw then "r#" ++ i.name else i.name

/-- `syn::Path`: an optional leading `::`, segments, and the arguments of the last one: none, one
or two types that are paths, or anything else, as text. -/
inductive Path where
  | plain (lead : Bool) (mods : List Ident) (last : Ident)
  | app1 (lead : Bool) (mods : List Ident) (last : Ident) (arg : Path)
  | app2 (lead : Bool) (mods : List Ident) (last : Ident) (a b : Path)
  | other (lead : Bool) (mods : List Ident) (last : Ident) (args : String)
deriving DecidableEq, Repr

namespace Path

/-- The last segment. -/
def last : Path → Ident
  | .plain _ _ i => i
  | .app1 _ _ i _ => i
  | .app2 _ _ i _ _ => i
  | .other _ _ i _ => i

/-- The other segments. -/
def mods : Path → List Ident
  | .plain _ m _ => m
  | .app1 _ m _ _ => m
  | .app2 _ m _ _ _ => m
  | .other _ m _ _ => m

/-- Whether the path begins with `::`. -/
def lead : Path → Bool
  | .plain l _ _ => l
  | .app1 l _ _ _ => l
  | .app2 l _ _ _ _ => l
  | .other l _ _ _ => l

/-- The names of the segments without `r#`. -/
def names (p : Path) : List String := p.mods.map (·.name) ++ [p.last.name]

/-- The segments as text. -/
def headText (lead : Bool) (mods : List Ident) (last : Ident) : String :=
  (if lead then "::" else "") ++ String.join (mods.map fun i => i.name ++ "::") ++ last.name

/-- `path.strip_raw().into_token_stream().to_string().replace(' ', "")`, codegen/mod.rs:489-492. -/
def text : Path → String
  | .plain l m i => headText l m i
  | .app1 l m i a => headText l m i ++ "<" ++ a.text ++ ">"
  | .app2 l m i a b => headText l m i ++ "<" ++ a.text ++ "," ++ b.text ++ ">"
  | .other l m i args => headText l m i ++ args

end Path

/-- The comparisons with paths without arguments of `get_primitive_sql_type`,
codegen/mod.rs:529-556,561-573. -/
def primPlain (ft : Features) (lead : Bool) (mods : List String) (last : String) : Option SqlType :=
  if lead then
    if mods = ["std", "string"] ∧ last = "String" then some .text else none
  else if mods = [] then
    if last = "bool" then some .bool
    else if last ∈ ["u8", "i8", "u16", "i16", "i32"] then some .int
    else if last = "u32" ∨ last = "i64" then some .bigInt
    else if last = "f32" ∨ last = "f64" then some .real
    else if last = "String" then some .text
    else if ft.json ∧ last = "Value" then some .json
    else if ft.uuid ∧ last = "Uuid" then some .blob
    else none
  else if mods = ["std", "string"] ∧ last = "String" then some .text
  else if ft.json ∧ mods = ["serde_json"] ∧ last = "Value" then some .json
  else if ft.uuid ∧ mods = ["uuid"] ∧ last = "Uuid" then some .blob
  else none

/-- Whether a path is `u8`. -/
def isU8 : Path → Bool
  | .plain false [] i => i.name == "u8"
  | _ => false

/-- The comparison with `Vec<u8>`, codegen/mod.rs:551-556. -/
def primVec (lead : Bool) (mods : List String) (last : String) (arg : Path) : Bool :=
  last == "Vec" && isU8 arg && ((!lead && mods == []) || mods == ["std", "vec"])

/-- The part for dates and times, codegen/mod.rs:575-605: only the last segment is looked at;
`template` is the last segment of the last argument (`template_type`, 621-631). -/
def primTime (ft : Features) (last : String) (template : Option String) : Option SqlType :=
  if ft.datetime then
    if last = "NaiveDateTime" then some .timestamp
    else if last = "DateTime" ∧ template = some "Utc" then some .timestamp
    else if last = "NaiveDate" then some .date
    else none
  else none

/-- `get_primitive_sql_type`, codegen/mod.rs:529-608. -/
def prim (ft : Features) : Path → Option SqlType
  | .plain l m i =>
    match primPlain ft l (m.map (·.name)) i.name with
    | some t => some t
    | none => primTime ft i.name none
  | .app1 l m i a =>
    if primVec l (m.map (·.name)) i.name a then some .blob
    else primTime ft i.name (some a.last.name)
  | .app2 _ _ i _ b => primTime ft i.name (some b.last.name)
  | .other _ _ i _ => primTime ft i.name none

/-- What the macros know about paths: the features, and `PATH_RESOLVER.resolve`,
codegen/mod.rs:40-83, a function of another crate. -/
structure Cfg where
  ft : Features
  resolve : Path → Option String

/-- `get_path_argument`, codegen/mod.rs:447-465: panics if there is not exactly one argument, or
if it is not a path.  (Simplified: `Fn(A)` arguments count as "anything else".) -/
def pathArg (g : Cfg) (p : Path) (tyname : String) : Option (Option Path) :=
  if g.resolve p = some tyname then
    match p with
    | .plain _ _ _ => some none
    | .app1 _ _ _ a => some (some a)
    | _ => none
  else some none

/-- `get_foreign_sql_type`, codegen/mod.rs:467-480. -/
def foreignType (g : Cfg) (p : Path) (tyname : String) : Option (Option DeferredSqlType) :=
  (pathArg g p tyname).map fun a => a.map fun q => .deferred (.pk q.last.name)

/-- `get_deferred_sql_type`, codegen/mod.rs:485-495, with `get_option_sql_type` (390-392) and
`get_autopk_sql_type` (409-411). -/
def deferredType (g : Cfg) : Path → Option DeferredSqlType
  | .app1 l m i a =>
    match prim g.ft (.app1 l m i a) with
    | some t => some (.knownId (.ty t))
    | none =>
      if g.resolve (.app1 l m i a) = some "Option" then deferredType g a
      else if g.resolve (.app1 l m i a) = some "ForeignKey" then
        some (.deferred (.pk a.last.name))
      else if g.resolve (.app1 l m i a) = some "AutoPk" then deferredType g a
      else some (.deferred (.customType (Path.app1 l m i a).text))
  | .plain l m i =>
    match prim g.ft (.plain l m i) with
    | some t => some (.knownId (.ty t))
    | none => some (.deferred (.customType (Path.plain l m i).text))
  | p =>
    match prim g.ft p with
    | some t => some (.knownId (.ty t))
    | none =>
      if g.resolve p = some "Option" ∨ g.resolve p = some "ForeignKey" ∨
        g.resolve p = some "AutoPk" then none
      else some (.deferred (.customType p.text))

/-- A literal of Rust, as far as `sqlval_from_lit` distinguishes them; `int none` is an integer
that is not an `i32`. -/
inductive Lit where
  | str (s : String)
  | byteStr (b : List UInt8)
  | int (i : Option Int32)
  | float (r : F64)
  | bool (b : Bool)
  | unsupported
deriving DecidableEq, Repr

/-- An attribute of a field.  `default none` is `#[default]` or `#[default = e]` where `e` is not
a literal. -/
inductive Attr where
  | pk | unique
  | default (l : Option Lit)
  | other (name : String)
deriving DecidableEq, Repr

/-- `syn::Field`: `ty` is `none` if the type is not a path. -/
structure Field where
  ident : Ident
  attrs : List Attr
  ty : Option Path
deriving DecidableEq, Repr

/-- `syn::ItemStruct` with the values of its `#[table = "…"]` attributes. -/
structure Struct where
  ident : Ident
  tables : List String
  fields : List Field
deriving DecidableEq, Repr

/-- `config_from_attributes`, codegen/mod.rs:312-330: the last attribute counts. -/
def Struct.config (s : Struct) : Option String := s.tables.getLast?

/-- `make_tablelit`, codegen/dbobj.rs:221-226, and the name in `create_atables`,
codegen/migration.rs:36-39. -/
def Struct.table (s : Struct) : String :=
  match s.config with
  | some n => n
  | none => s.ident.name

/-- `pk_field`, codegen/mod.rs:350-361. -/
def Struct.pkField (s : Struct) : Option Field :=
  match s.fields.find? (fun f => f.attrs.any (· == .pk)) with
  | some f => some f
  | none => s.fields.find? (fun f => f.ident.text == "id")

/-- `is_auto`, codegen/mod.rs:363-365 with `get_type_argument`, 433-442. -/
def isAuto (g : Cfg) (f : Field) : Option Bool :=
  match f.ty with
  | none => some false
  | some p => (pathArg g p "AutoPk").map (·.isSome)

/-- `is_option`, codegen/mod.rs:421-423. -/
def isOption (g : Cfg) (f : Field) : Option Bool :=
  match f.ty with
  | none => some false
  | some p => (pathArg g p "Option").map (·.isSome)

/-- `is_unique`, codegen/mod.rs:367-372. -/
def isUnique (f : Field) : Bool := f.attrs.any (· == .unique)

/-- `get_many_sql_type`, codegen/mod.rs:404-407. -/
def manyType (g : Cfg) (f : Field) : Option (Option DeferredSqlType) :=
  match f.ty with
  | none => none
  | some p => foreignType g p "Many"

/-- `is_many_to_many`, codegen/mod.rs:413-415; `is_row_field` (426-428) is its negation. -/
def isMany (g : Cfg) (f : Field) : Option Bool := (manyType g f).map (·.isSome)

/-- `get_foreign_key_sql_type`, codegen/mod.rs:394-402. -/
def foreignKeyType (g : Cfg) (f : Field) : Option (Option DeferredSqlType) :=
  match f.ty with
  | none => none
  | some p =>
    match pathArg g p "Option" with
    | none => none
    | some (some inner) => foreignType g inner "ForeignKey"
    | some none => foreignType g p "ForeignKey"

/-- `is_foreign_key`, codegen/mod.rs:417-419. -/
def isForeignKey (g : Cfg) (f : Field) : Option Bool := (foreignKeyType g f).map (·.isSome)

/-- `sqlval_from_lit`, codegen/mod.rs:633-649; `none` is an error or a panic. -/
def litVal : Lit → Option SqlVal
  | .str s => some (.text s)
  | .byteStr b => some (.blob b)
  | .int i => i.map .int
  | .float r => some (.real r)
  | .bool b => some (.bool b)
  | .unsupported => none

/-- `attr.path().is_ident("default")`, codegen/mod.rs:502. -/
def Attr.isDefault : Attr → Bool
  | .default _ => true
  | _ => false

/-- `get_default(f).expect(…)`, codegen/mod.rs:501-517 and migration.rs:61. -/
def getDefault (f : Field) : Option (Option SqlVal) :=
  match f.attrs.find? Attr.isDefault with
  | some (.default (some l)) => (litVal l).map some
  | some (.default none) => none
  | _ => some none

/-- The column of a field, codegen/migration.rs:51-67. -/
def column (g : Cfg) (pk f : Field) : Option AColumn :=
  match f.ty with
  | none => none
  | some p =>
    match deferredType g p, isOption g f, isAuto g f, getDefault f, isForeignKey g f with
    | some d, some nullable, some auto, some dflt, some fk =>
      some ⟨f.ident.name, d, nullable, decide (f = pk), auto, isUnique f, dflt,
        if fk then some (.deferred d) else none⟩
    | _, _, _, _, _ => none

/-- `many_table`, codegen/migration.rs:76-101. -/
def manyTable (g : Cfg) (table : String) (pk f : Field) : Option ATable :=
  match manyType g f, pk.ty with
  | some (some d), some p =>
    (deferredType g p).map fun pkty => createManyTable table f.ident.name d pk.ident.name pkty
  | _, _ => none

/-- The loop of `create_atables`, codegen/migration.rs:44-72. -/
def addFields (g : Cfg) (pk : Field) : ATable → List ATable → List Field → Option (ATable × List ATable)
  | t, links, [] => some (t, links)
  | t, links, f :: fs =>
    match isMany g f with
    | none => none
    | some false =>
      match column g pk f with
      | none => none
      | some c => addFields g pk (t.addColumn c) links fs
    | some true =>
      match manyTable g t.name pk f with
      | none => none
      | some l => addFields g pk t (links ++ [l]) fs

/-- `create_atables`, codegen/migration.rs:35-74. -/
def createATables (g : Cfg) (s : Struct) : Option (List ATable) :=
  match s.pkField with
  | none => none
  | some pk => (addFields g pk (.new s.table) [] s.fields).map fun r => r.1 :: r.2

/-- `write_table_to_disk`, codegen/migration.rs:12-33: the tables, and with a custom table name
the alias for the type. -/
def writeTables (g : Cfg) (db : ADB) (s : Struct) : Option ADB :=
  (createATables g s).map fun ts =>
    let db := ts.foldl (fun db t => db.replaceTable t) db
    match s.config with
    | some n =>
      { db with extraTypes := db.extraTypes.insert (.pk s.ident.name) (.deferred (.pk n)) }
    | none => db

/-- `verify_fields`, codegen/dbobj.rs:388-416: whether the model is accepted. -/
def verifyFields (g : Cfg) (s : Struct) : Option Bool :=
  match s.pkField with
  | none => some false
  | some pk =>
    s.fields.foldr (fun f rest =>
      match isAuto g f with
      | none => none
      | some false => rest
      | some true =>
        match f.ty with
        | none => none
        | some (.app1 _ _ _ a) =>
          match deferredType g a with
          | none => none
          | some d =>
            if (d = .knownId (.ty .int) ∨ d = .knownId (.ty .bigInt)) ∧ pk = f then rest
            else some false
        | some _ => some false) (some true)

/-- `dataobject_impl`, codegen/mod.rs:91-103, the body of `#[model]` and `#[derive(DataObject)]`:
what is recorded, and whether the model is accepted.  The tables are written first. -/
def modelMacro (g : Cfg) (db : ADB) (s : Struct) : ADB × Bool :=
  match writeTables g db s with
  | none => (db, false)
  | some db' => (db', verifyFields g s == some true)

/-! ### The generated code -/

/-- `columns`, codegen/dbobj.rs:353-372: the name, and the type whose `SQLTYPE` is used. -/
def genColumnsOf (g : Cfg) (s : Struct) (pred : Field → Bool) : List (String × Path) :=
  (s.fields.filter fun f => isMany g f == some false && pred f).filterMap fun f =>
    f.ty.map fun p => (f.ident.name, p)

/-- `COLUMNS`, codegen/dbobj.rs:161,201-203. -/
def genColumns (g : Cfg) (s : Struct) : List (String × Path) := genColumnsOf g s fun _ => true

/-- `NON_AUTO_COLUMNS`, codegen/dbobj.rs:39,78-80. -/
def genNonAutoColumns (g : Cfg) (s : Struct) : List (String × Path) :=
  genColumnsOf g s fun f => isAuto g f == some false

/-- `TABLE`, codegen/dbobj.rs:23,100. -/
def genTable (s : Struct) : String := s.table

/-- `PKCOL`, codegen/dbobj.rs:31-34,99. -/
def genPkcol (s : Struct) : Option String := s.pkField.map (·.ident.name)

/-- `AUTO_PK`, codegen/dbobj.rs:35,101. -/
def genAutoPk (g : Cfg) (s : Struct) : Bool := (s.pkField.bind (isAuto g)) == some true

/-- `many_table_lit`, codegen/dbobj.rs:374-386: the link table of a field. -/
def genManyTable (s : Struct) (f : Field) : String :=
  (match s.config with
    | some n => n
    | none => s.ident.name) ++ "_" ++ f.ident.name ++ manySuffix

/-! ### A crate -/

/-- What `#[derive(FieldType)]` is put on: a struct with one unnamed field, an enum without
fields, anything else. -/
inductive Shape where
  | newtype (p : Option Path)
  | simpleEnum
  | otherwise
deriving DecidableEq, Repr

/-- `derive_field_type_impl`, butane_codegen/src/lib.rs:293-320: the type that is recorded and
given as `SQLTYPE`; `none` is a panic or an error. -/
def Shape.sqltype (ft : Features) : Shape → Option SqlType
  | .newtype (some p) =>
    match prim ft p with
    | some t => some t
    | none => if ft.json then some .json else none
  | .newtype none => none
  | .simpleEnum => some .text
  | .otherwise => if ft.json then some .json else none

/-- The items of a crate that butane's macros are put on. -/
inductive Item where
  /-- `#[model] struct` -/
  | model (s : Struct)
  /-- `#[butane_type] type name = p;` -/
  | alias (name : Ident) (p : Path)
  /-- `#[butane_type(ty)] struct name` or `enum` -/
  | typed (name : Ident) (ty : TypeIdentifier)
  /-- `#[derive(FieldType)]` -/
  | derived (name : Ident) (shape : Shape)
deriving DecidableEq, Repr

/-- `add_custom_type`, codegen/mod.rs:658-668. -/
def addType (db : ADB) (name : String) (d : DeferredSqlType) : ADB :=
  { db with extraTypes := db.extraTypes.insert (.customType name) d }

/-- Expanding one item: `model_with_migrations` (codegen/mod.rs:114-149),
`butane_type_with_migrations` (codegen/mod.rs:241-289), and the derive
(butane_codegen/src/lib.rs:322-331,363-373,437-445), which does not strip `r#`. -/
def expand (g : Cfg) (db : ADB) : Item → Option ADB
  | .model s => writeTables g db s
  | .alias n p => (deferredType g p).map fun d => addType db n.name d
  | .typed n ty => some (addType db n.name (.knownId ty))
  | .derived n sh => (sh.sqltype g.ft).map fun t => addType db n.text (.knownId (.ty t))

/-- Compiling a crate: its items in the order in which the compiler expands them, beginning with
what is recorded already. -/
def expandAll (g : Cfg) (db : ADB) : List Item → Option ADB
  | [] => some db
  | i :: is =>
    match expand g db i with
    | none => none
    | some db' => expandAll g db' is

end Butane.Codegen
