import Verif.Model.Resolve
import Verif.Spec.Schema
/-
What it means for a type key to stand for a type in a schema, and for a schema to be the
resolved form of another.
-/
namespace Butane.Spec
open Butane

/-- The names of string-keyed map types, which are stored as JSON. -/
def StringMapName (n : String) : Prop :=
  ∃ m ∈ ["HashMap", "BTreeMap"], ∃ p ∈ ["", "collections::", "std::collections::"],
  ∃ s ∈ ["String", "string::String", "std::string::String"],
  ∃ rest, n.toList = p.toList ++ m.toList ++ ['<'] ++ s.toList ++ [','] ++ rest

/-- `Stands json db k ty`: following primary keys and registered types, the key `k` stands
for the type `ty` in the schema `db`. -/
inductive Stands (json : Bool) (db : ADB) : TypeKey → TypeIdentifier → Prop where
  /-- string-keyed maps are JSON -/
  | map {n} : json = true → StringMapName n → Stands json db (.customType n) (.ty .json)
  /-- the key of a table stands for the type of its primary key column ... -/
  | tableKnown {e c ty} : e ∈ db.tables → e.2.pk = some c → denotes c.sqltype = .inl ty →
      Stands json db (.pk e.2.name) ty
  /-- ... which may itself be given by a key -/
  | tableKey {e c k ty} : e ∈ db.tables → e.2.pk = some c → c.sqltype = .deferred k →
      Stands json db k ty → Stands json db (.pk e.2.name) ty
  /-- a registered type stands for what it was registered as ... -/
  | extraKnown {k d ty} : (k, d) ∈ db.extraTypes → denotes d = .inl ty → Stands json db k ty
  /-- ... which may itself be given by a key -/
  | extraKey {k k' ty} : (k, DeferredSqlType.deferred k') ∈ db.extraTypes → Stands json db k' ty →
      Stands json db k ty

/-- `d'` is `d`, or `d` was deferred and `d'` is a type its key stands for. -/
def TypeResolved (json : Bool) (db : ADB) (d d' : DeferredSqlType) : Prop :=
  d' = d ∨ ∃ k ty, d = .deferred k ∧ d' = .knownId ty ∧ Stands json db k ty

/-- The table a type key refers to, given the registered aliases. -/
inductive RefersTo (db : ADB) : TypeKey → String → Prop where
  | alias {k t} : db.extraTypes.lookup k = some (.deferred (.pk t)) → RefersTo db k t
  | direct {t} : (∀ u, db.extraTypes.lookup (.pk t) ≠ some (.deferred (.pk u))) → RefersTo db (.pk t) t

/-- How a reference is resolved: a deferred reference becomes the primary key of the table
it refers to, if there is one, and otherwise stays; anything else stays. -/
def RefResolved (db : ADB) (r r' : Option ARef) : Prop :=
  match r with
  | some (.deferred d) => ∃ k t, d = .deferred k ∧ RefersTo db k t ∧
      match (db.getTable t).bind ATable.pk with
      | some c => r' = some (.literal t c.name)
      | none => r' = r
  | _ => r' = r

/-- A column and its resolved form: only the type and the reference may differ. -/
structure ColResolved (json : Bool) (db : ADB) (c c' : AColumn) : Prop where
  name : c'.name = c.name
  type : TypeResolved json db c.sqltype c'.sqltype
  nullable : c'.nullable = c.nullable
  pk : c'.pk = c.pk
  auto : c'.auto = c.auto
  unique : c'.unique = c.unique
  default : c'.default = c.default
  reference : RefResolved db c.reference c'.reference

/-- A schema and its resolved form: the same tables and registered types, in which only
deferred types and references may have been replaced. -/
structure Resolves (json : Bool) (db db' : ADB) : Prop where
  tables : AllMatch (fun e e' => e'.1 = e.1 ∧ e'.2.name = e.2.name ∧
    AllMatch (ColResolved json db) e.2.columns e'.2.columns) db.tables db'.tables
  extra : AllMatch (fun e e' => e'.1 = e.1 ∧ TypeResolved json db e.2 e'.2) db.extraTypes db'.extraTypes

/-- What the code generator guarantees: every table has a primary key unless it is a link
table, and a deferred reference names a table or a registered alias of one. -/
structure Generated (db : ADB) : Prop where
  pk : ∀ e ∈ db.tables, (∃ c ∈ e.2.columns, c.pk = true) ∨ ∃ p, e.2.name = p ++ "_Many"
  refs : ∀ e ∈ db.tables, ∀ c ∈ e.2.columns, ∀ d, c.reference = some (.deferred d) →
    ∃ k t, d = .deferred k ∧ RefersTo db k t

end Butane.Spec
