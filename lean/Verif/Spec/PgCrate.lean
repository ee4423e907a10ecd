/-
The tables a PostgreSQL database should have for a crate, and which crates butane can describe to
PostgreSQL.
-/
import Verif.Spec.CrateDb
import Verif.Spec.PgDdl

namespace Butane.Spec
open Butane Butane.Ddl Butane.Codegen
open Butane.PgCat (lower PCol PTable PKind stdName)

/-- The type PostgreSQL has for values of a Rust type, by its name. -/
def PgTypeNames (ft : Features) (items : List Item) (p : Path) (w : List String) : Prop :=
  ∃ ty, HasSqlType ft items p (.ty ty) ∧ pgTypeOf ty = some w

/-- The column of the database that holds a field of a model. -/
structure PgFieldColumn (ft : Features) (items : List Item) (f : Codegen.Field) (d : PCol) : Prop where
  name : d.name = lower f.ident.name
  type : ∃ p, f.ty = some p ∧ PgTypeNames ft items p d.type
  notNull : d.notNull = true ↔ ¬ ∃ p q, f.ty = some p ∧ WrittenAs "Option" p q
  serial : d.serial = true ↔ ∃ p q, f.ty = some p ∧ WrittenAs "AutoPk" p q

/-- The constraints the table of a model has. -/
def PgModelKey (items : List Item) (s : Struct) : PKind → Prop
  | .pk c => ∃ f, IsKey s f ∧ c = lower f.ident.name
  | .unique c => ∃ f ∈ rowFields s, .unique ∈ f.attrs ∧ c = lower f.ident.name
  | .fk c r k => ∃ f ∈ rowFields s, ∃ fk, FieldRefers items f fk ∧ c = lower fk.col ∧ r = lower fk.table ∧
      k = lower fk.refCol

/-- The table of a model: a column for each field that is stored in the row and for nothing else; the
model's key, its unique fields and its references. -/
structure PgModelTable (ft : Features) (items : List Item) (s : Struct) (t : PTable) : Prop where
  distinct : (t.cols.map (·.name)).Nodup
  fields : ∀ f ∈ rowFields s, ∃ d ∈ t.cols, PgFieldColumn ft items f d
  columns : ∀ d ∈ t.cols, ∃ f ∈ rowFields s, PgFieldColumn ft items f d
  keys : ∀ k, (∃ x ∈ t.cons, x.kind = k) ↔ PgModelKey items s k

/-- A column of a link table: it holds keys of `s`. -/
structure PgLinkColumn (ft : Features) (items : List Item) (s : Struct) (name : String) (d : PCol) : Prop where
  name : d.name = name
  type : ∃ k p, IsKey s k ∧ k.ty = some p ∧ PgTypeNames ft items p d.type
  notNull : d.notNull = true
  serial : d.serial = false

/-- A link table between the models `s` and `s'`. -/
structure PgLinkTable (ft : Features) (items : List Item) (s s' : Struct) (t : PTable) : Prop where
  distinct : (t.cols.map (·.name)).Nodup
  owner : ∃ d ∈ t.cols, PgLinkColumn ft items s "owner" d
  has : ∃ d ∈ t.cols, PgLinkColumn ft items s' "has" d
  columns : ∀ d ∈ t.cols, d.name = "owner" ∨ d.name = "has"
  keys : ∀ k, (∃ x ∈ t.cons, x.kind = k) ↔
    (∃ f, IsKey s f ∧ k = .fk "owner" (lower (tableOf s)) (lower f.ident.name)) ∨
    ∃ f, IsKey s' f ∧ k = .fk "has" (lower (tableOf s')) (lower f.ident.name)

/-- The database has the tables of the models of a crate, their link tables, and no others. -/
structure PgCrateTables (ft : Features) (items : List Item) (u : PgCat.PDb) : Prop where
  models : ∀ s ∈ modelsOf items, ∃ t, u.lookup (lower (tableOf s)) = some t ∧ PgModelTable ft items s t
  links : ∀ s ∈ modelsOf items, ∀ f ∈ s.fields, ∀ q, IsMany f q → ∀ s' ∈ modelsOf items,
    q.last.name = s'.ident.name →
    ∃ t, u.lookup (lower (tableOf s ++ "_" ++ f.ident.name ++ "_Many")) = some t ∧ PgLinkTable ft items s s' t
  only : ∀ n t, u.lookup n = some t → ∃ s ∈ modelsOf items, ∃ m ∈ tablesOf s, n = lower m

/-! ### Crates butane can describe to PostgreSQL -/

/-- A table of the crate, or the one butane records migrations in. -/
def UsedTable (items : List Item) (n : String) : Prop :=
  (∃ s ∈ modelsOf items, n ∈ tablesOf s) ∨ n = "butane_migrations"

/-- A column of such a table. -/
inductive UsedColumn (items : List Item) : String → String → Prop where
  | field {s f} : s ∈ modelsOf items → f ∈ rowFields s → UsedColumn items (tableOf s) f.ident.name
  | link {s f q c} : s ∈ modelsOf items → f ∈ s.fields → IsMany f q → c = "owner" ∨ c = "has" →
      UsedColumn items (tableOf s ++ "_" ++ f.ident.name ++ "_Many") c
  | record : UsedColumn items "butane_migrations" "name"

/-- The names stay distinct in lower case, and so do the default names of constraints, which are not
names of tables and not too long. -/
structure PgCrateNames (items : List Item) : Prop where
  tables : ∀ n m, UsedTable items n → UsedTable items m → lower n = lower m → n = m
  columns : ∀ n c d, UsedColumn items n c → UsedColumn items n d → lower c = lower d → c = d
  constraints : ∀ n c m d, UsedColumn items n c → UsedColumn items m d →
    lower n ++ "_" ++ lower c = lower m ++ "_" ++ lower d → n = m ∧ c = d
  free : ∀ m n c k, UsedTable items m → UsedColumn items n c → k.col = lower c → stdName (lower n) k ≠ lower m
  short : ∀ n c k, UsedColumn items n c → k.col = lower c → (stdName (lower n) k).utf8ByteSize ≤ 63

/-- A crate butane can describe to PostgreSQL: names of tables and fields are ASCII identifiers, in lower
case where they are reserved words, and do not collide; no table is called like the one butane uses
itself; the types of fields are built in; only keys are `AutoPk`, and then of a type with 32 or 64 bits
and without a default; keys are not optional; and defaults are numbers. -/
structure PgCrate (kw : String → Bool) (ft : Features) (items : List Item) : Prop where
  tables : ∀ s ∈ modelsOf items, ∀ n ∈ tablesOf s, PgName kw n
  notRecords : ∀ s ∈ modelsOf items, tableOf s ≠ "butane_migrations"
  fields : ∀ s ∈ modelsOf items, ∀ f ∈ s.fields, PgName kw f.ident.name
  names : PgCrateNames items
  types : ∀ s ∈ modelsOf items, ∀ f ∈ rowFields s, ∀ p ty, f.ty = some p → HasSqlType ft items p ty →
    ∃ w, PgTypeNames ft items p w
  auto : ∀ s ∈ modelsOf items, ∀ f ∈ s.fields, ∀ p q, f.ty = some p → WrittenAs "AutoPk" p q → IsKey s f ∧
    (HasSqlType ft items p (.ty .int) ∨ HasSqlType ft items p (.ty .bigInt)) ∧ ∀ l, .default l ∉ f.attrs
  key : ∀ s ∈ modelsOf items, ∀ f, IsKey s f → ∀ p q, f.ty = some p → ¬ WrittenAs "Option" p q
  real : ∀ s ∈ modelsOf items, ∀ f ∈ s.fields, ∀ r, .default (some (.float r)) ∈ f.attrs → r.isNaN = false

end Butane.Spec
