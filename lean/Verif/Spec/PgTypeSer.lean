/-
What it means that a PostgreSQL type survives.
-/
import Verif.Model.PgTypeSer

namespace Butane.Spec
open Butane

mutual
/-- The two types say the same about the database: they have the same name, number and schema,
and are of the same kind, all the way down. -/
inductive SameType : PgTy → PgTy → Prop
  | mk {b b' name oid k k' schema} : SameKind k k' →
      SameType (.mk b name oid k schema) (.mk b' name oid k' schema)
inductive SameKind : PgKind → PgKind → Prop
  | simple : SameKind .simple .simple
  | enum_ (v) : SameKind (.enum_ v) (.enum_ v)
  | pseudo : SameKind .pseudo .pseudo
  | array {t t'} : SameType t t' → SameKind (.array t) (.array t')
  | range {t t'} : SameType t t' → SameKind (.range t) (.range t')
  | multirange {t t'} : SameType t t' → SameKind (.multirange t) (.multirange t')
  | domain {t t'} : SameType t t' → SameKind (.domain t) (.domain t')
  | composite {f f'} : SameTyFields f f' → SameKind (.composite f) (.composite f')
inductive SameTyFields : PgFields → PgFields → Prop
  | nil : SameTyFields .nil .nil
  | cons {name t t' f f'} : SameType t t' → SameTyFields f f' → SameTyFields (.cons name t f) (.cons name t' f')
end

mutual
/-- No part of the type satisfies `P` of its being built in and its kind. -/
def TypeFree (P : Bool → PgKind → Prop) : PgTy → Prop
  | .mk b _ _ k _ => ¬ P b k ∧ KindFree P k
def KindFree (P : Bool → PgKind → Prop) : PgKind → Prop
  | .simple => True
  | .enum_ _ => True
  | .pseudo => True
  | .array t => TypeFree P t
  | .range t => TypeFree P t
  | .multirange t => TypeFree P t
  | .domain t => TypeFree P t
  | .composite f => FieldsFree P f
def FieldsFree (P : Bool → PgKind → Prop) : PgFields → Prop
  | .nil => True
  | .cons _ t f => TypeFree P t ∧ FieldsFree P f
end

/-- The type is a multirange. -/
def IsMultirange (_ : Bool) (k : PgKind) : Prop := ∃ t, k = .multirange t

/-- The type is one of the constants of the library. -/
def IsBuiltin (b : Bool) (_ : PgKind) : Prop := b = true

end Butane.Spec
