/-
The tables an SQLite database should have for a crate.
-/
import Verif.Spec.Codegen
import Verif.Spec.SqliteMigrate

namespace Butane.Spec
open Butane Butane.Ddl Butane.Codegen

/-- The storage class SQLite has for values of a Rust type. -/
def SqliteTypeOf (ft : Features) (items : List Item) (p : Path) (st : SqliteType) : Prop :=
  ∃ ty, HasSqlType ft items p (.ty ty) ∧ sqliteType ty = some st

/-- The column of the database that holds a field of a model. -/
structure FieldColumn (ft : Features) (items : List Item) (s : Struct) (f : Codegen.Field) (d : ColDef) :
    Prop where
  name : d.name = f.ident.name
  type : ∃ p st, f.ty = some p ∧ SqliteTypeOf ft items p st ∧ d.type = [st.name]
  notNull : d.notNull = true ↔ ¬ ∃ p q, f.ty = some p ∧ WrittenAs "Option" p q
  pk : d.pk = true ↔ IsKey s f
  unique : d.unique = true ↔ .unique ∈ f.attrs
  keyDefault : IsKey s f → d.default = none

/-- The foreign key of a field that refers to an object. -/
def FieldRefers (items : List Item) (f : Codegen.Field) (fk : RefCon) : Prop :=
  ∃ q s' k, IsRef f q ∧ s' ∈ modelsOf items ∧ q.last.name = s'.ident.name ∧ IsKey s' k ∧
    fk = ⟨f.ident.name, tableOf s', k.ident.name⟩

/-- The table of a model: a column for each field that is stored in the row and for nothing else, and
a foreign key for each field that refers to an object. -/
structure ModelTable (ft : Features) (items : List Item) (s : Struct) (t : STable) : Prop where
  distinct : (t.cols.map (·.name)).Nodup
  fields : ∀ f ∈ rowFields s, ∃ d ∈ t.cols, FieldColumn ft items s f d
  columns : ∀ d ∈ t.cols, ∃ f ∈ rowFields s, FieldColumn ft items s f d
  refs : ∀ fk, fk ∈ t.fks ↔ ∃ f ∈ rowFields s, FieldRefers items f fk

/-- A column of a link table: it holds keys of `s`. -/
structure LinkColumn (ft : Features) (items : List Item) (s : Struct) (n : String) (d : ColDef) : Prop where
  name : d.name = n
  type : ∃ k p st, IsKey s k ∧ k.ty = some p ∧ SqliteTypeOf ft items p st ∧ d.type = [st.name]
  notNull : d.notNull = true
  pk : d.pk = false
  unique : d.unique = false

/-- A link table between the models `s` and `s'`. -/
structure LinkTableOf (ft : Features) (items : List Item) (s s' : Struct) (t : STable) : Prop where
  distinct : (t.cols.map (·.name)).Nodup
  owner : ∃ d ∈ t.cols, LinkColumn ft items s "owner" d
  has : ∃ d ∈ t.cols, LinkColumn ft items s' "has" d
  columns : ∀ d ∈ t.cols, d.name = "owner" ∨ d.name = "has"
  refs : ∀ fk, fk ∈ t.fks ↔ (∃ k, IsKey s k ∧ fk = ⟨"owner", tableOf s, k.ident.name⟩) ∨
    ∃ k, IsKey s' k ∧ fk = ⟨"has", tableOf s', k.ident.name⟩

/-- The database has the tables of the models of a crate, their link tables, and no others. -/
structure CrateTables (ft : Features) (items : List Item) (u : SDb) : Prop where
  models : ∀ s ∈ modelsOf items, ∃ t, u.lookup (tableOf s) = some t ∧ ModelTable ft items s t
  links : ∀ s ∈ modelsOf items, ∀ f ∈ s.fields, ∀ q, IsMany f q → ∀ s' ∈ modelsOf items,
    q.last.name = s'.ident.name →
    ∃ t, u.lookup (tableOf s ++ "_" ++ f.ident.name ++ "_Many") = some t ∧ LinkTableOf ft items s s' t
  only : ∀ n t, u.lookup n = some t → ∃ s ∈ modelsOf items, n ∈ tablesOf s

/-- A crate butane can describe to SQLite: names of tables and fields are ASCII identifiers, none is
that of a table butane uses itself, the types of fields are built in, and only keys are `AutoPk`. -/
structure PlainCrate (ft : Features) (items : List Item) : Prop where
  tables : ∀ s ∈ modelsOf items, IsName (tableOf s) ∧ tableOf s ≠ "butane_migrations" ∧
    ∀ n, tableOf s ≠ replacement n
  fields : ∀ s ∈ modelsOf items, ∀ f ∈ s.fields, IsName f.ident.name
  types : ∀ s ∈ modelsOf items, ∀ f ∈ rowFields s, ∀ p ty, f.ty = some p → HasSqlType ft items p ty →
    ∃ st, SqliteTypeOf ft items p st
  auto : ∀ s ∈ modelsOf items, ∀ f ∈ s.fields, ∀ p q, f.ty = some p → WrittenAs "AutoPk" p q → IsKey s f

/-- `current` is what the macros record for the crate when there is nothing in it before. -/
structure Compiled (g : Cfg) (items : List Item) (s : FsMigrations) : Prop where
  bases : (s.info "current").tableBases = []
  recorded : ∃ db, expandAll g ADB.new items = some db ∧ (s.dir "current").tables = db.tables ∧
    (s.dir "current").types.getD [] = db.extraTypes

end Butane.Spec
