/-
What becomes of objects when their model changes and the database is migrated.
-/
import Verif.Spec.CrateObj

namespace Butane.Spec
open Butane Butane.Ddl Butane.Codegen

/-- The value of the field of that name, if it is stored in the row of the object. -/
def valueOf (n : String) : (fs : List TField) → ObjVals fs → Option (Σ t : FieldTy, t.Val)
  | [], _ => none
  | ⟨n', _, none⟩ :: fs, (_, os) => if n' = n then none else valueOf n fs os
  | ⟨n', _, some t⟩ :: fs, (x, os) => if n' = n then some ⟨t, x⟩ else valueOf n fs os

/-- The model has a field of that name and type. -/
def HasField (m : TModel) (n : String) (t : FieldTy) : Prop := ∃ f ∈ m.fields, f.name = n ∧ f.ty = some t

/-- The objects of `m` become objects of `m'`: both have the same table and key, and what fields they
have in common did not change their types. -/
structure Extends (m m' : TModel) (pk pk' : TField) : Prop where
  table : m'.table = m.table
  key : pk'.name = pk.name
  keyType : pk'.ty = pk.ty
  fields : ∀ n t t', HasField m n t → HasField m' n t' → t' = t

/-- `y` is the value that a new column gets in the rows that are there. -/
structure FilledWith (codecs : TextCodecs) (c : AColumn) (t : FieldTy) (y : t.Val) : Prop where
  proper : Proper t y
  noNaN : NoNaNField t y
  stored : ∃ v w b, NewValue c v ∧ toSqlite codecs v = .ok b ∧ t.toSql y = .ok w ∧ toSqlite codecs w = .ok b

/-- `o'` is what became of `o`: the fields both have have the same values, and the new ones have their
defaults. -/
structure BecomesObj (m m' : TModel) (Default : String → (t : FieldTy) → t.Val → Prop)
    (o : ObjVals m.fields) (o' : ObjVals m'.fields) : Prop where
  kept : ∀ n t x, valueOf n m.fields o = some ⟨t, x⟩ → HasField m' n t →
    ∃ y, valueOf n m'.fields o' = some ⟨t, y⟩ ∧ SameField t x y
  added : ∀ n t, HasField m' n t → ¬ HasField m n t →
    ∃ y x, valueOf n m'.fields o' = some ⟨t, y⟩ ∧ Default n t x ∧ SameField t x y

/-- `x` is the zero of its type: what rows that are there get in a new field without a default. -/
def Zero : (t : FieldTy) → t.Val → Prop
  | .bool, x => x = false
  | .i64, x => x = 0
  | .i32, x => x = 0
  | .u32, x => x = 0
  | .u16, x => x = 0
  | .i16, x => x = 0
  | .u8, x => x = 0
  | .i8, x => x = 0
  | .f64, x => x = ⟨0⟩
  | .string, x => x = ""
  | .bytes, x => x = []
  | .newtype t, x => Zero t x
  | _, _ => False

/-- What objects that are there get in a new field: the default it declares; without one, an `Option`
is `None`, and any other field is the zero of its type. -/
inductive FieldDefault (codecs : TextCodecs) (f : Codegen.Field) : (t : FieldTy) → t.Val → Prop where
  | declared {t : FieldTy} {x : t.Val} {v w b} : DefaultOf f (some v) → Proper t x → NoNaNField t x →
      t.toSql x = .ok w → toSqlite codecs v = .ok b → toSqlite codecs w = .ok b → FieldDefault codecs f t x
  | absent {t : FieldTy} {p q} : DefaultOf f none → f.ty = some p → WrittenAs "Option" p q →
      FieldDefault codecs f (.option t) none
  | zero {t : FieldTy} {x : t.Val} : DefaultOf f none → (¬ ∃ p q, f.ty = some p ∧ WrittenAs "Option" p q) →
      Zero t x → FieldDefault codecs f t x

/-- What objects that are there get in a new field of a struct. -/
def StructDefault (codecs : TextCodecs) (s : Struct) (n : String) (t : FieldTy) (x : t.Val) : Prop :=
  ∃ f ∈ s.fields, f.ident.name = n ∧ FieldDefault codecs f t x

/-- All migrations are applied. -/
def UpToDate (json : Bool) (s : FsMigrations) (db : MigDb SDb) : Prop :=
  ∀ made, HasMigrations json s made → ∀ e ∈ made, Recorded db e.1

end Butane.Spec
