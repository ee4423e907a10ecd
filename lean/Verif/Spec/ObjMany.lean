/-
Histories of a program that also changes `Many` fields and deletes by query.
-/
import Verif.Spec.ObjQuery
import Verif.Model.SqliteMany

namespace Butane.Spec
open Butane Butane.Ddl

/-! ### Link tables -/

/-- The columns of a link table: keys of owners and of items. -/
structure LinkFits (L : Links) (t : STable) : Prop where
  owner : ∃ d ∈ t.cols, d.name = "owner" ∧ ∃ ty st, L.owner.ty = some ty ∧ sqliteType ty.sqltype = some st ∧
    d.type = [st.name]
  has : ∃ d ∈ t.cols, d.name = "has" ∧ ∃ ty st, L.target.ty = some ty ∧ sqliteType ty.sqltype = some st ∧
    d.type = [st.name]

/-- Every `Many` field is one of a model with items of a model, and has a table; SQLite does not reserve
`owner`. -/
structure LinksReady (k : SqliteConn) (u : SDb) (W : World) : Prop where
  plain : PlainName k.reserved "owner"
  owner : ∀ n L, W.links n = some L → ∃ n' s, W.stock n' = some s ∧ s.pk = L.owner
  target : ∀ n L, W.links n = some L → ∃ n' s, W.stock n' = some s ∧ s.pk = L.target
  table : ∀ n L, W.links n = some L → ∃ t, u.lookup n = some t ∧ LinkFits L t

/-! ### Effects -/

/-- With these items added to what an owner has. -/
def Links.add (L : Links) (own : SqlVal) (vs : List SqlVal) : Links :=
  { L with linked := fun x y => L.linked x y ∨ (x = own ∧ y ∈ vs) }

/-- Without these items of an owner. -/
def Links.drop (L : Links) (own : SqlVal) (vs : List SqlVal) : Links :=
  { L with linked := fun x y => L.linked x y ∧ ¬ (x = own ∧ y ∈ vs) }

/-- Without these items of any owner. -/
def Links.dropItems (L : Links) (vs : List SqlVal) : Links :=
  { L with linked := fun x y => L.linked x y ∧ ¬ y ∈ vs }

/-- Without all items of an owner. -/
def Links.clear (L : Links) (own : SqlVal) : Links :=
  { L with linked := fun x y => L.linked x y ∧ x ≠ own }

def World.setLinks (W : World) (n : String) (L : Links) : World :=
  { W with links := fun n' => if n' = n then some L else W.links n' }

open Classical in
/-- Without the objects the filter describes. -/
noncomputable def Stock.without (k : SqliteConn) (W : World) (s : Stock) (e : Option FOr) : Objects s.m :=
  fun id => if ∃ o, s.Has id o ∧ ∀ f ∈ e, FilterMeans k W s o f then none else s.objs id

/-- What a `Many` field that is to be saved may contain: keys of an owner and of items. -/
structure ManyKeys {im : TModel} (m : TMany im) (n : String) (L : Links) (own : SqlVal) : Prop where
  table : m.itemTable = n
  owner : m.owner = some own
  ownerKey : KeyLike L.owner own
  new : ∀ v ∈ m.newValues, KeyLike L.target v
  removed : ∀ v ∈ m.removedValues, KeyLike L.target v

/-- Items a failed `save` added nevertheless: all, if the removal failed; otherwise those that are not
pending any more, except for the one whose insertion failed. -/
def addedBy {im : TModel} (m m' : TMany im) : List SqlVal :=
  if m'.removedValues.length < m.removedValues.length then m.newValues
  else m.newValues.drop (m'.newValues.length + 1)

/-- What a program does with its objects, and which objects and links there are then: objects are saved
and deleted, one by one or by query, and `Many` fields are saved (which may fail in the middle) and
emptied.  Removed items are removed from what one owner has; they must not be items of other
owners (`many_save_other_owner_violated`). -/
inductive ProgramRun (k : SqliteConn) (u0 : SDb) (W0 : World) : SDb → World → Prop
  | start : ProgramRun k u0 W0 u0 W0
  | objects {u W u' W'} : ProgramRun k u0 W0 u W → WorldRun k u W u' W' → ProgramRun k u0 W0 u' W'
  | deleteQuery {u W n u'} {s : Stock} {q : Query} {e : Option FOr} : ProgramRun k u0 W0 u W →
      W.stock n = some s → Sendable k W s q e → TModel.deleteQuery k u q = .ok u' →
      ProgramRun k u0 W0 u' (W.setObjs n s (s.without k W e))
  | manySave {u W n L u' own} {im : TModel} {m m' : TMany im} : ProgramRun k u0 W0 u W →
      W.links n = some L → ManyKeys m n L own →
      (∀ x y, L.linked x y → y ∈ m.removedValues → x = own) →
      m.save k u = (u', m', none) →
      ProgramRun k u0 W0 u' (W.setLinks n ((L.add own m.newValues).drop own m.removedValues))
  | manySaveFailed {u W n L u' own e} {im : TModel} {m m' : TMany im} : ProgramRun k u0 W0 u W →
      W.links n = some L → ManyKeys m n L own → m.save k u = (u', m', some e) →
      ProgramRun k u0 W0 u' (W.setLinks n (L.add own (addedBy m m')))
  | manyDelete {u W n L u' own} {im : TModel} {m m' : TMany im} : ProgramRun k u0 W0 u W →
      W.links n = some L → ManyKeys m n L own → m.delete k u = (u', m', none) →
      ProgramRun k u0 W0 u' (W.setLinks n (L.clear own))

/-- What the `Many` field of an object with this key may contain when the object is saved: keys of items;
and if the field was used before, it was as the field of this object.  Removed items must not be items
of other owners. -/
structure FieldFor (W : World) (pk : TField) (id : SqlVal) (f : ManyField) (L : Links) : Prop where
  links : W.links f.table = some L
  owner : L.owner = pk
  init : f.many.owner = none ∨ (f.many.owner = some id ∧ f.many.itemTable = f.table)
  new : ∀ v ∈ f.many.newValues, KeyLike L.target v
  removed : ∀ v ∈ f.many.removedValues, KeyLike L.target v
  others : ∀ x y, L.linked x y → y ∈ f.many.removedValues → x = id

end Butane.Spec
