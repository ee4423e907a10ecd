import Verif.Model.Describe
import Verif.Spec.Schema
/-
What a description of the changes between two schemas should say.  Written without `diff` and
its operations.
-/
namespace Butane.Spec
open Butane Butane.Cli

/-- Something about a column that changed, with the value before and after. -/
inductive ColAttr where
  | type (old new : TypeIdentifier)
  | pk (old new : Bool)
  | auto (old new : Bool)
  | nullable (old new : Bool)
  | unique (old new : Bool)
  | default (old new : Option SqlVal)
  | references (old new : Option (String × String))

/-- Something that is said about a table or a column of it. -/
inductive Note where
  | newTable (table : String) (columns : List (String × TypeIdentifier))
  | removeTable (table : String)
  | newColumn (table column : String) (type : TypeIdentifier)
  | removeColumn (table column : String)
  | changeColumn (table column : String) (attrs : List ColAttr)

def ColAttr.line : ColAttr → Line
  | .type a b => .type a b
  | .pk a b => .pk a b
  | .auto a b => .auto a b
  | .nullable a b => .nullable a b
  | .unique a b => .unique a b
  | .default a b => .default a b
  | .references a b => .references a b

/-- How it is printed. -/
def Note.lines : Note → List Line
  | .newTable t cols => .newTable t :: cols.map fun c => .tableColumn c.1 c.2
  | .removeTable t => [.removeTable t]
  | .newColumn t c ty => [.newColumn t c ty]
  | .removeColumn t c => [.removeColumn t c]
  | .changeColumn t c attrs => .changeColumn t c :: attrs.map ColAttr.line

/-- The table or column that a note is about. -/
def Note.subject : Note → String × Option String
  | .newTable t _ => (t, none)
  | .removeTable t => (t, none)
  | .newColumn t c _ => (t, some c)
  | .removeColumn t c => (t, some c)
  | .changeColumn t c _ => (t, some c)

/-- A column refers to this column of this table. -/
def Target : Option ARef → Option (String × String) → Prop
  | none, none => True
  | some (.literal t c), some (t', c') => t = t' ∧ c = c'
  | _, _ => False

/-- It is so, and a change. -/
def ColAttr.Right (old new : AColumn) : ColAttr → Prop
  | .type a b => denotes old.sqltype = .inl a ∧ denotes new.sqltype = .inl b ∧ a ≠ b
  | .pk a b => old.pk = a ∧ new.pk = b ∧ a ≠ b
  | .auto a b => old.auto = a ∧ new.auto = b ∧ a ≠ b
  | .nullable a b => old.nullable = a ∧ new.nullable = b ∧ a ≠ b
  | .unique a b => old.unique = a ∧ new.unique = b ∧ a ≠ b
  | .default a b => old.default = a ∧ new.default = b ∧ ¬ OptRel SameVal a b
  | .references a b => Target old.reference a ∧ Target new.reference b ∧ a ≠ b

/-- What the note says is so: the table is new, with these columns; it is gone; and for a
table of both schemas, the column is new, with this type; it is gone; or it is not the same,
and these are the things that changed. -/
def Note.Right (old new : ADB) : Note → Prop
  | .newTable n cols => old.getTable n = none ∧ ∃ t, new.getTable n = some t ∧
      AllMatch (fun (c : AColumn) e => c.name = e.1 ∧ denotes c.sqltype = .inl e.2) t.columns cols
  | .removeTable n => (∃ s, old.getTable n = some s) ∧ new.getTable n = none
  | .newColumn n c ty => ∃ s t, old.getTable n = some s ∧ new.getTable n = some t ∧
      (∀ x ∈ s.columns, x.name ≠ c) ∧ ∃ y ∈ t.columns, y.name = c ∧ denotes y.sqltype = .inl ty
  | .removeColumn n c => ∃ s t, old.getTable n = some s ∧ new.getTable n = some t ∧
      (∃ x ∈ s.columns, x.name = c) ∧ ∀ y ∈ t.columns, y.name ≠ c
  | .changeColumn n c attrs => ∃ s t, old.getTable n = some s ∧ new.getTable n = some t ∧
      ∃ x ∈ s.columns, x.name = c ∧ ∃ y ∈ t.columns, y.name = c ∧ ¬ SameColumn x y ∧
        attrs ≠ [] ∧ attrs.Nodup ∧ ∀ a, a ∈ attrs ↔ a.Right x y

/-- The output describes the changes: it is notes that are right, at most one for each table or
column, and one for each of which there is something to say; or else it says that there are
no changes. -/
def Describes (old new : ADB) (out : List Line) : Prop :=
  ∃ notes : List Note,
    ((notes = [] ∧ out = [.noChanges]) ∨ (notes ≠ [] ∧ out = notes.flatMap Note.lines)) ∧
    (∀ n ∈ notes, n.Right old new) ∧ (notes.map Note.subject).Nodup ∧
    ∀ n : Note, n.Right old new → ∃ n' ∈ notes, n'.subject = n.subject

/-- Every type and reference of the schema is known. -/
structure Resolved (db : ADB) : Prop where
  types : ∀ e ∈ db.tables, ∀ c ∈ e.2.columns, ∃ ty, denotes c.sqltype = .inl ty
  refs : ∀ e ∈ db.tables, ∀ c ∈ e.2.columns, ∀ d, c.reference ≠ some (.deferred d)

end Butane.Spec
