import Verif.Model.Adb
/-
What it means for two schemas to be the same, and for an operation to be applicable.
Written without `diff`, `transform_with` or the code's equality tests.
-/
namespace Butane.Spec
open Butane

/-- The two lists have the same length and correspond element by element. -/
inductive AllMatch {α : Type u} {β : Type v} (R : α → β → Prop) : List α → List β → Prop where
  | nil : AllMatch R [] []
  | cons {a b as bs} : R a b → AllMatch R as bs → AllMatch R (a :: as) (b :: bs)

/-- Two values are the same value: identical, or reals that are numerically equal. -/
def SameVal (a b : SqlVal) : Prop :=
  a = b ∨ ∃ x y, a = .real x ∧ b = .real y ∧ x.eq y = true

/-- What a possibly deferred type denotes: a type identifier or the key it waits for. -/
def denotes : DeferredSqlType → TypeIdentifier ⊕ TypeKey
  | .known t => .inl (.ty t)
  | .knownId i => .inl i
  | .deferred k => .inr k

/-- The same reference target. -/
def SameRef : ARef → ARef → Prop
  | .literal t c, .literal t' c' => t = t' ∧ c = c'
  | .deferred a, .deferred b => denotes a = denotes b
  | _, _ => False

/-- Both absent, or both present and related. -/
def OptRel {α : Type} (R : α → α → Prop) : Option α → Option α → Prop
  | none, none => True
  | some a, some b => R a b
  | _, _ => False

/-- The same column definition: every attribute agrees. -/
structure SameColumn (a b : AColumn) : Prop where
  name : a.name = b.name
  type : denotes a.sqltype = denotes b.sqltype
  nullable : a.nullable = b.nullable
  pk : a.pk = b.pk
  auto : a.auto = b.auto
  unique : a.unique = b.unique
  default : OptRel SameVal a.default b.default
  reference : OptRel SameRef a.reference b.reference

/-- The same table: same name, and the same columns up to their order. -/
def SameTable (s t : ATable) : Prop :=
  s.name = t.name ∧ ∃ cols, cols.Perm s.columns ∧ AllMatch SameColumn cols t.columns

/-- The same schema: the same table names, each with the same definition. -/
def SameSchema (a b : ADB) : Prop :=
  ∀ n, OptRel SameTable (a.getTable n) (b.getTable n)

/-- A schema as butane builds it: a map from names to tables of that name, whose
columns have distinct names. -/
structure ValidSchema (db : ADB) : Prop where
  sorted : db.tables.Sorted
  keyed : ∀ e ∈ db.tables, e.1 = e.2.name
  distinct : ∀ e ∈ db.tables, (e.2.columns.map (·.name)).Nodup

/-- No column default is a not-a-number real. -/
def NoNaN (db : ADB) : Prop :=
  ∀ e ∈ db.tables, ∀ c ∈ e.2.columns, ∀ x, c.default = some (.real x) → x.isNaN = false

/-- What an operation needs to find in the database it is executed on. -/
def Applicable (db : ADB) : Operation → Prop
  | .addTable t => db.getTable t.name = none
  | .addTableIfNotExists _ => True
  | .removeTableConstraints t => db.getTable t.name = some t
  | .removeTable n => ∃ t, db.getTable n = some t
  | .addColumn tbl c => ∃ t, db.getTable tbl = some t ∧ ∀ x ∈ t.columns, x.name ≠ c.name
  | .removeColumn tbl c => ∃ t, db.getTable tbl = some t ∧ ∃ x ∈ t.columns, x.name = c
  | .changeColumn tbl old new => old.name = new.name ∧
      ∃ t, db.getTable tbl = some t ∧ old ∈ t.columns
  | .addTableConstraints t => db.getTable t.name = some t

end Butane.Spec
