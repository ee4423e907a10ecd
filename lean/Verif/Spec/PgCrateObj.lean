/-
Which models of a crate can be used with PostgreSQL, and the databases in which their objects are stored.
-/
import Verif.Spec.PgCrate
import Verif.Spec.CrateObj
import Verif.Spec.PgAccept

namespace Butane.Spec
open Butane Butane.Ddl Butane.Codegen
open Butane.PgCat (lower PCol PTable PKind)

/-- The name of a type. -/
def pgTypeWords : PgType → Option (List String)
  | .bool => some ["boolean"]
  | .int4 => some ["integer"]
  | .int8 => some ["bigint"]
  | .float8 => some ["double", "precision"]
  | .text => some ["text"]
  | .bytea => some ["bytea"]
  | .jsonb => some ["jsonb"]
  | .date => some ["date"]
  | .timestamp => some ["timestamp"]
  | .other _ => none

/-- A column of the catalog, as statements of the program see it: with the name they write. -/
structure PgStoredColumn (items : List Item) (n : String) (c : PTable) (d : PCol) (e : PgData.Column) : Prop where
  spelled : UsedColumn items n e.name
  name : lower e.name = d.name
  type : pgTypeWords e.type = some d.type
  notNull : e.notNull = d.notNull
  serial : e.serial = d.serial
  unique : e.unique = true ↔ ∃ x ∈ c.cons, x.kind = .pk d.name ∨ x.kind = .unique d.name

/-- A table of the catalog as statements see it: the same columns and the same references. -/
structure PgStoredTable (items : List Item) (n : String) (c : PTable) (t : PgData.Table) : Prop where
  columns : AllMatch (PgStoredColumn items n c) c.cols t.cols
  refs : ∀ fk ∈ t.fks, UsedColumn items n fk.col ∧ UsedColumn items fk.table fk.refCol ∧
    ∃ x ∈ c.cons, x.kind = .fk (lower fk.col) (lower fk.table) (lower fk.refCol)
  allRefs : ∀ x ∈ c.cons, ∀ col r k, x.kind = .fk col r k →
    ∃ fk ∈ t.fks, lower fk.col = col ∧ lower fk.table = r ∧ lower fk.refCol = k

/-- The database `u`, whose names are written as in the crate, has the catalog `cat` (whose names are in
lower case). -/
structure PgStores (items : List Item) (cat : PgCat.PDb) (u : PgData.PDb) : Prop where
  sorted : u.Sorted
  tables : ∀ n t, u.lookup n = some t → (∃ s ∈ modelsOf items, n ∈ tablesOf s) ∧
    ∃ c, cat.lookup (lower n) = some c ∧ PgStoredTable items n c t
  all : ∀ s ∈ modelsOf items, ∀ n ∈ tablesOf s, ∀ c, cat.lookup (lower n) = some c → ∃ t, u.lookup n = some t

/-- A model of a crate whose objects can be stored in PostgreSQL: `Option` and `AutoPk` are not hidden
behind an alias; no field is written `r#id`; the name of the key needs no quotes; keys are neither
real nor JSON nor optional, and automatic ones are integers; there are at most 126 columns. -/
structure PgUsableModel (ft : Features) (items : List Item) (k : PgConn) (s : Struct) (m : TModel)
    (pk : TField) : Prop where
  isModel : IsModel ft items s m
  option : ∀ f ∈ s.fields, ∀ p ty, f.ty = some p → RustType ft items p ty → MayBeAbsent ty →
    ∃ q, WrittenAs "Option" p q
  auto : ∀ f ∈ s.fields, ∀ p ty, f.ty = some p → RustType ft items p (.autoPk ty) →
    ∃ q, WrittenAs "AutoPk" p q
  noRaw : ∀ f ∈ s.fields, f.ident.name = "id" → f.ident = ⟨"id", false⟩
  covers : CoversReserved k.kw k.reserved
  excluded : k.reserved "excluded" = false
  table : m.table ≠ "excluded"
  key : m.pkField = some pk
  plain : PlainName k.reserved pk.name
  keyType : ∀ ty, pk.ty = some ty → ty.sqltype ≠ .real ∧ ty.sqltype ≠ .json ∧ ¬ MayBeAbsent ty
  autoInt : ∀ ty, pk.ty = some (.autoPk ty) → ∃ I : IntType ty, IsIntType I
  count : m.columns.length ≤ 126

end Butane.Spec
