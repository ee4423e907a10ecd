/-
What it means that data is deleted, and rows that refer to others.
-/
import Verif.Spec.ObjMany

namespace Butane.Spec
open Butane Butane.Ddl

/-- A row of the table `b` refers to one of the table `a`. -/
def RowRefers (u : SDb) (b a : String) : Prop :=
  ∃ t p, u.lookup b = some t ∧ u.lookup a = some p ∧ ∃ fk ∈ t.fks, fk.table = a ∧ ∃ r ∈ t.rows, ∃ v,
    field t.cols r fk.col = some v ∧ v ≠ .null ∧ hasKey p fk.refCol v = true

/-- The rows of these tables are deleted, and nothing else is changed. -/
def RowsDeleted (names : List String) (u u' : SDb) : Prop :=
  ∀ n, u'.lookup n = if n ∈ names then (u.lookup n).map fun t => { t with rows := [] } else u.lookup n

/-- The tables that are empty when deleting ends: those that were announced, except for the one where it
failed. -/
def cleared {ε : Type} (shown : List String) : Except ε Unit → List String
  | .ok _ => shown
  | .error _ => shown.dropLast

/-- Without the objects of models and the items of `Many` fields with these tables. -/
def World.emptied (W : World) (names : List String) : World where
  stock n := if n ∈ names then (W.stock n).map fun s => ⟨s.m, s.pk, fun _ => none⟩ else W.stock n
  links n := if n ∈ names then (W.links n).map fun L => { L with linked := fun _ _ => False } else W.links n

/-- There are no objects and no items. -/
structure World.Empty (W : World) : Prop where
  stock : ∀ n s, W.stock n = some s → ∀ id, s.objs id = none
  links : ∀ n L, W.links n = some L → ∀ x y, ¬ L.linked x y

end Butane.Spec
