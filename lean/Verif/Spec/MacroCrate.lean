/-
What `filter!` knows of the models of a crate.
-/
import Verif.Spec.MacroObjects
import Verif.Spec.CrateProgram

namespace Butane.Spec
open Butane Butane.Codegen Macro

/-- The type written `p` is a reference to the model written `q`, maybe behind aliases. -/
inductive TypeRefers (items : List Item) : Path → Path → Prop where
  | direct {p q} : WrittenAs "ForeignKey" p q → TypeRefers items p q
  | alias {n i p q} : .alias n p ∈ items → n.name = i.name → TypeRefers items p q →
      TypeRefers items (.plain false [] i) q

/-- What `filter!` can do with a field of a struct: a reference can be used with `matches`, a `Many` with
`contains`, and any field but a `Many` can be compared. -/
inductive KindOf (items : List Item) (st : Struct) (f : Codegen.Field) : FKind → Prop where
  | plain : (∀ q, ¬ IsMany f q) → KindOf items st f .plain
  | fkey {p q st'} : f.ty = some p → TypeRefers items p q → st' ∈ modelsOf items → q.last.name = st'.ident.name →
      KindOf items st f (.fkey st'.ident.name)
  | many {q st'} : IsMany f q → st' ∈ modelsOf items → q.last.name = st'.ident.name →
      KindOf items st f (.many (tableOf st ++ "_" ++ f.ident.name ++ "_Many") st'.ident.name)

/-- The models `filter!` knows are those of the crate: tables and keys are those the structs declare, and
fields are fields of the structs; what is no model of the crate has none of its tables. -/
structure CrateEnv (items : List Item) (E : MEnv) : Prop where
  obj : ∀ st ∈ modelsOf items, (E.obj st.ident.name).table = tableOf st ∧
    ∃ f, IsKey st f ∧ (E.obj st.ident.name).pkcol = f.ident.name
  other : ∀ T, (∀ st ∈ modelsOf items, st.ident.name ≠ T) → ∀ st ∈ modelsOf items, (E.obj T).table ≠ tableOf st
  field : ∀ st ∈ modelsOf items, ∀ n kind, E.field st.ident.name n = some kind →
    ∃ f ∈ st.fields, f.ident.name = n ∧ KindOf items st f kind

/-- The names of columns need no quotes, and no model that a `Many` refers to has one named `owner` or
`has`. -/
structure CrateFilterNames (items : List Item) (k : SqliteConn) : Prop where
  plain : ∀ st ∈ modelsOf items, ∀ f ∈ st.fields, (∀ q, ¬ IsMany f q) → PlainName k.reserved f.ident.name
  link : ∀ st ∈ modelsOf items, ∀ f ∈ st.fields, ∀ q, IsMany f q → ∀ st' ∈ modelsOf items,
    q.last.name = st'.ident.name → ∀ f' ∈ st'.fields, f'.ident.name ≠ "owner" ∧ f'.ident.name ≠ "has"

/-- What Rust's type checker lets through: keys of the right type, and values that can be bound. -/
structure TypesChecked (E : MEnv) (k : SqliteConn) (W : World) : Prop where
  keys : ∀ T s v, W.stock (E.obj T).table = some s → E.keyOk T v = true → KeyLike s.pk v
  values : ∀ T f op v, E.cmpOk T f op v = true → CanBind k v

end Butane.Spec
